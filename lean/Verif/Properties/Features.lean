import Verif.Proofs.Features
import Verif.Properties.Exact

/-!
# Builds: C78, C79
-/

namespace OAuth

open OAuth.Build OAuth.Spec

/-! ### Builds for the examples -/

namespace Build

/-- The build with just these atoms. -/
def only (l : List Atom) : Build := fun a => l.contains a

theorem isBuild_of_closed {b : Build} (h : Closed b) : IsBuild b := by
  refine ⟨fun a => b a = true, fun a => ⟨fun ha => .selected ha, fun ha => ?_⟩⟩
  induction ha with
  | selected h => exact h
  | implied _ hc ih => exact h _ ih _ hc

theorem isBuild_only {l : List Atom} (h : (l.all fun a => (enables a).all fun c => l.contains c) = true) :
    IsBuild (only l) := by
  apply isBuild_of_closed
  intro a ha c hc
  simp only [List.all_eq_true] at h
  exact h a (by simpa [only] using ha) c hc

/-- `cargo build` -/
def default : Build := only [.feature .derive, .feature .requestDerive, .feature .hmacSha1, .feature .digest,
  .feature .hmac, .feature .sha1, .feature .std, .feature .alloc, .dep .credentialsStd,
  .dep .credentialsAlloc, .dep .randStd, .dep .randStdRng, .debugAssertions]

/-- `--no-default-features --features=js,derive,hmac-sha1` -/
def noAlloc : Build := only [.feature .js, .feature .jsSys, .feature .derive, .feature .requestDerive,
  .feature .hmacSha1, .feature .digest, .feature .hmac, .feature .sha1, .debugAssertions]

/-- `--no-default-features --features=alloc,hmac-sha1,derive` -/
def noStd : Build := only [.feature .alloc, .dep .credentialsAlloc, .feature .derive,
  .feature .requestDerive, .feature .hmacSha1, .feature .digest, .feature .hmac, .feature .sha1,
  .debugAssertions]

/-- `--no-default-features --features=test` -/
def testOnly : Build := only [.feature .test, .debugAssertions]

theorem isBuild_default : IsBuild default := isBuild_only (by decide)
theorem isBuild_noAlloc : IsBuild noAlloc := isBuild_only (by decide)
theorem isBuild_noStd : IsBuild noStd := isBuild_only (by decide)
theorem isBuild_testOnly : IsBuild testOnly := isBuild_only (by decide)

/-- The default build is what Cargo makes of the feature `default`. -/
theorem default_enabled (a : Atom) : default a = true ↔
    Enabled (fun a => a = .debugAssertions ∨ ∃ f ∈ defaultFeatures, a = .feature f) a := by
  constructor
  · intro h
    have sel : ∀ f, f ∈ defaultFeatures →
        Enabled (fun a => a = .debugAssertions ∨ ∃ f ∈ defaultFeatures, a = .feature f) (.feature f) :=
      fun f hf => .selected (.inr ⟨f, hf, rfl⟩)
    simp only [default, only, List.contains_eq_mem, decide_eq_true_eq, List.mem_cons, List.not_mem_nil,
      or_false] at h
    rcases h with rfl | rfl | rfl | rfl | rfl | rfl | rfl | rfl | rfl | rfl | rfl | rfl | rfl
    · exact sel .derive (by decide)
    · exact .implied (sel .derive (by decide)) (by decide)
    · exact sel .hmacSha1 (by decide)
    · exact .implied (sel .hmacSha1 (by decide)) (by decide)
    · exact .implied (sel .hmacSha1 (by decide)) (by decide)
    · exact .implied (sel .hmacSha1 (by decide)) (by decide)
    · exact sel .std (by decide)
    · exact .implied (sel .std (by decide)) (by decide)
    · exact .implied (sel .std (by decide)) (by decide)
    · exact .implied (a := .dep .credentialsStd) (.implied (sel .std (by decide)) (by decide)) (by decide)
    · exact .implied (sel .std (by decide)) (by decide)
    · exact .implied (sel .std (by decide)) (by decide)
    · exact .selected (.inl rfl)
  · intro h
    induction h with
    | selected h =>
      rcases h with rfl | ⟨f, hf, rfl⟩
      · decide
      · revert f; decide
    | implied _ hc ih =>
      exact closed_of_isBuild isBuild_default _ ih _ hc

end Build

/-! ### C78 -/

/-- C78: in every build, whatever the features and the target, every reference of every compiled item
listed is met. -/
theorem C78_resolves {b : Build} (h : IsBuild b) : Resolves decls b :=
  resolves_of_check (by decide +kernel) (closed_of_isBuild h)

/-- C78: and no name is declared twice. -/
theorem C78_unique {b : Build} (h : IsBuild b) : NamesUnique decls b :=
  unique_of_check (by decide +kernel) (closed_of_isBuild h)

/-- C78: each of the constructors of `Authorizer` names all of its fields and no other: the field
`prev_key` is there if and only if the branch taken mentions it. -/
theorem C78_prev_key (b : Build) :
    HasItem decls b .Authorizer_prev_key ↔ (cfgOf b).checksOrder = true := by
  rw [← itemPred_eval]
  have : itemPred decls .Authorizer_prev_key = .or allocDebug ff := by decide +kernel
  rw [this]
  simp [Pred.eval, ff, allocDebug, feat, Cfg.checksOrder, cfgOf, and_comm]

/-- C78: enabling more features never takes away an item, except that with `std` two imports of another
name for a part of `std` are not made. -/
theorem C78_additive {b b' : Build} (h : IsBuild b) (h' : IsBuild b')
    (hle : ∀ a, b a = true → b' a = true) {n : Name} (hn : n ∉ [Name.tests_std, .credentials_alloc])
    (hi : HasItem decls b n) : HasItem decls b' n :=
  monotone_of_check (by decide +kernel) (closed_of_isBuild h) (closed_of_isBuild h') hle hn hi

example := And.intro (C78_resolves isBuild_default) (C78_unique isBuild_default)
example := And.intro (C78_resolves isBuild_noAlloc) (C78_unique isBuild_noAlloc)
example : HasItem decls Build.default .Builder_authorize ∧ ¬ HasItem decls noAlloc .Builder_authorize := by
  simp only [← itemPred_eval]; decide +kernel

/-- C78: `Builder::to_form_with_buf` is there only with `alloc`, although all it refers to is always there
(as are the methods like it). -/
theorem C78_to_form_with_buf {b : Build} (h : IsBuild b) :
    (HasItem decls b .Builder_to_form_with_buf ↔ b (.feature .alloc) = true) ∧
    (∀ d ∈ decls, d.name = .Builder_to_form_with_buf → ∀ u ∈ d.uses, Met decls b u.2) ∧
    (∀ n ∈ [Name.Builder_to_query, .Builder_authorize_with_buf, .Builder_into_query,
      .Builder_into_authorization_with_buf, .Builder_into_form_with_buf], HasItem decls b n) := by
  refine ⟨?_, ?_, ?_⟩
  · rw [← itemPred_eval]
    have : itemPred decls .Builder_to_form_with_buf = .or (feat .alloc) ff := by decide +kernel
    rw [this]
    simp [Pred.eval, ff, feat]
  · intro d hd hn u hu
    have hall : (decls.all fun d => !decide (d.name = .Builder_to_form_with_buf) || d.uses.all fun u =>
        implies .tt (needPred decls u.2)) = true := by decide +kernel
    have := List.all_eq_true.mp hall d hd
    simp only [hn, decide_true, Bool.not_true, Bool.false_or, List.all_eq_true] at this
    exact (needPred_eval _ _ _).mp (implies_sound (this u hu) (closed_of_isBuild h) rfl)
  · intro n hn
    have hall : ([Name.Builder_to_query, .Builder_authorize_with_buf, .Builder_into_query,
        .Builder_into_authorization_with_buf, .Builder_into_form_with_buf].all fun n =>
        implies .tt (itemPred decls n)) = true := by decide +kernel
    rw [← itemPred_eval]
    exact implies_sound (List.all_eq_true.mp hall n hn) (closed_of_isBuild h) rfl

/-- A reference that does not hold up shows: without the feature `hmac-sha1` among those of
`digest_common`, the crate would not compile. -/
example : ¬ Resolves (decls.filter fun d => d.name ≠ .signature_method_digest_common) Build.default := by
  intro h
  have := h ⟨.signature_method_hmac_sha1, feat .hmacSha1, plain [.krate .digest, .krate .hmac, .krate .sha1,
    .item .signature_method_digest_common]⟩ (by decide +kernel) (by decide)
    (.tt, .item .signature_method_digest_common) (by decide) rfl
  revert this
  rw [← needPred_eval]
  decide +kernel

/-! ### C79 -/

/-- C79: every example works in every build in which it is compiled. False, see `C79_violated`. -/
def C79_statement : Prop :=
  ∀ e ∈ examples, ∀ b : Build, IsBuild b → e.run.eval b = true → Works decls b e

/-- C79 for eight of the examples. Missing: the other six, see `C79_iff`. -/
theorem C79_examples_partial :
    ∀ e ∈ [docList, docDerive, docParameterList, docAssertSorted, docSerializer,
      docSign, docRecord, docSerialize],
    ∀ b : Build, IsBuild b → e.run.eval b = true → Works decls b e := by
  intro e he b hb
  have hall : ([docList, docDerive, docParameterList, docAssertSorted, docSerializer,
      docSign, docRecord, docSerialize].all fun e => implies e.run (worksPred decls e)) = true := by
    decide +kernel
  exact works_of_implies (List.all_eq_true.mp hall e he) (closed_of_isBuild hb)

/-- C79, exactly. The example of the crate's documentation needs `alloc` and a clock, that of the builder a
clock, that of `Recorder` the derive macro, those of `oauth-credentials` its feature `alloc`; that of
README.md works in no build. -/
theorem C79_iff {b : Build} (h : IsBuild b) :
    (docCrate.run.eval b = true →
      (Works decls b docCrate ↔ b (.feature .alloc) = true ∧ HasClock b)) ∧
    (docBuilder.run.eval b = true → (Works decls b docBuilder ↔ HasClock b)) ∧
    (docRecorder.run.eval b = true → (Works decls b docRecorder ↔ b (.feature .derive) = true)) ∧
    (Works decls b docCredentials ↔ b (.dep .credentialsAlloc) = true) ∧
    (docSerde.run.eval b = true →
      (Works decls b docSerde ↔ b (.dep .credentialsAlloc) = true)) ∧
    ¬ Works decls b docReadme := by
  have hc := closed_of_isBuild h
  have key : ∀ (e : Example) (q : Pred),
      (e.uses.all fun n => implies (.and e.run q) (needPred decls n)) = true →
      (e.uses.any fun n => implies (needPred decls n) q) = true → e.run.eval b = true →
      (Works decls b e ↔ q.eval b = true ∧ (e.signsNow = true → HasClock b)) := by
    intro e q h1 h2 hr
    obtain ⟨n, hn, h2⟩ := List.any_eq_true.mp h2
    constructor
    · rintro ⟨hm, hclk⟩
      exact ⟨implies_sound h2 hc ((needPred_eval _ _ _).mpr (hm n hn)), hclk⟩
    · rintro ⟨hq, hclk⟩
      refine ⟨fun n hn => (needPred_eval _ _ _).mp ?_, hclk⟩
      exact implies_sound (List.all_eq_true.mp h1 n hn) hc (by simp [Pred.eval, hr, hq])
  refine ⟨fun hr => ?_, fun hr => ?_, fun hr => ?_, ?_, fun hr => ?_, ?_⟩
  · rw [key docCrate (feat .alloc) (by decide +kernel) (by decide +kernel) hr]
    simp [Pred.eval, feat, docCrate]
  · rw [key docBuilder .tt (by decide +kernel) (by decide +kernel) hr]
    simp [Pred.eval, docBuilder]
  · rw [key docRecorder (feat .derive) (by decide +kernel) (by decide +kernel) hr]
    simp [Pred.eval, feat, docRecorder]
  · rw [key docCredentials (cred .credentialsAlloc) (by decide +kernel) (by decide +kernel) rfl]
    simp [Pred.eval, cred, docCredentials]
  · rw [key docSerde (cred .credentialsAlloc) (by decide +kernel) (by decide +kernel) hr]
    simp [Pred.eval, cred, docSerde]
  · rintro ⟨hm, -⟩
    have hm := hm (.item .HmacSha1Value) (by decide)
    rw [← needPred_eval] at hm
    have : needPred decls (.item .HmacSha1Value) = ff := by decide +kernel
    rw [this] at hm
    cases hm

/-- C79 in every build with `std` and `derive` for a target with a clock, in particular with the default
features, but for README.md. -/
theorem C79_std_partial {b : Build} (h : IsBuild b) (hstd : b (.feature .std) = true)
    (hd : b (.feature .derive) = true) (hw : b .wasm = false) :
    ∀ e ∈ examples, e ≠ docReadme → e.run.eval b = true → Works decls b e := by
  have hc := closed_of_isBuild h
  have ha : b (.feature .alloc) = true := hc _ hstd _ (by decide)
  have hca : b (.dep .credentialsAlloc) = true := hc _ ha _ (by decide)
  have hclk : HasClock b := .inr ⟨hstd, hw⟩
  obtain ⟨h1, h2, h3, h4, h5, -⟩ := C79_iff h
  intro e he hne hr
  simp only [examples, List.mem_cons, List.not_mem_nil, or_false] at he
  rcases he with rfl | rfl | rfl | rfl | rfl | rfl | rfl | rfl | rfl | rfl | rfl | rfl | rfl | rfl
  · exact (h1 hr).mpr ⟨ha, hclk⟩
  · exact C79_examples_partial _ (by decide) b h hr
  · exact (h2 hr).mpr hclk
  · exact C79_examples_partial _ (by decide) b h hr
  · exact C79_examples_partial _ (by decide) b h hr
  · exact C79_examples_partial _ (by decide) b h hr
  · exact C79_examples_partial _ (by decide) b h hr
  · exact C79_examples_partial _ (by decide) b h hr
  · exact (h3 hr).mpr hd
  · exact C79_examples_partial _ (by decide) b h hr
  · exact h4.mpr hca
  · exact (h5 hr).mpr hca
  · exact C79_examples_partial _ (by decide) b h hr
  · exact absurd rfl hne

example := C79_std_partial isBuild_default rfl rfl rfl docCrate (by decide) (by decide) (by decide)

/-- C79 fails in builds that are made by `cargo test`: the example of the crate's documentation without
`alloc`, and with `alloc` but without `std`; that of `Recorder` with `test` alone; those of
`oauth-credentials` without features; that of README.md with the default features. -/
theorem C79_violated : ¬ C79_statement ∧
    (∃ b, IsBuild b ∧ b (.feature .alloc) = false ∧ docCrate.run.eval b = true ∧
      ¬ Works decls b docCrate) ∧
    (∃ b, IsBuild b ∧ b (.feature .alloc) = true ∧ docCrate.run.eval b = true ∧
      ¬ Works decls b docCrate ∧ docBuilder.run.eval b = true ∧ ¬ Works decls b docBuilder) ∧
    (∃ b, IsBuild b ∧ docRecorder.run.eval b = true ∧ ¬ Works decls b docRecorder ∧
      ¬ Works decls b docCredentials) ∧
    (docReadme.run.eval Build.default = true ∧ ¬ Works decls Build.default docReadme) := by
  have hclock : ∀ b : Build, clockPred.eval b = false → ¬ HasClock b := by
    intro b h hc
    rw [← clockPred_eval, h] at hc
    cases hc
  have h1 : ¬ Works decls noAlloc docCrate := by
    rw [(C79_iff isBuild_noAlloc).1 (by decide)]
    exact fun h => absurd h.1 (by decide)
  have h2 : ¬ HasClock noStd := hclock _ (by decide)
  refine ⟨fun h => h1 (h _ (by decide) _ isBuild_noAlloc (by decide)),
    ⟨noAlloc, isBuild_noAlloc, by decide, by decide, h1⟩,
    ⟨noStd, isBuild_noStd, by decide, by decide, ?_, by decide, ?_⟩,
    ⟨testOnly, isBuild_testOnly, by decide, ?_, ?_⟩, by decide, (C79_iff isBuild_default).2.2.2.2.2⟩
  · rw [(C79_iff isBuild_noStd).1 (by decide)]
    exact fun h => h2 h.2
  · rw [(C79_iff isBuild_noStd).2.1 (by decide)]
    exact h2
  · rw [(C79_iff isBuild_testOnly).2.2.1 (by decide)]
    decide
  · rw [(C79_iff isBuild_testOnly).2.2.2.1]
    decide

/-- C79: what a missing clock means: in a build without one, signing a request with a timestamp and
without a configured one never returns, whatever the signature method, request and environment; in a build
with a clock it is read. -/
theorem C79_clock {build : Build} :
    ((cfgOf build).clock ≠ .none ↔ HasClock build) ∧
    (¬ HasClock build → ∀ {S : Type} {b : Builder S} {name : Bytes} {un : Bool},
      ConstSign b.signatureMethod.sign name un true → b.options.timestamp = none →
      ∀ {r : Request} {cs : List Call}, IsTrace r cs → Call.oauth .timestamp ∈ cs →
      ∀ (method : Bytes) (uri : Display) (w : World) (res : Bytes × World),
        b.authorize (cfgOf build) method uri r w ≠ .ok res) := by
  have hiff : (cfgOf build).clock ≠ .none ↔ HasClock build := by
    simp only [cfgOf, HasClock, jsWasm, Pred.eval, feat]
    cases build (.feature .js) <;> cases build .wasm <;> cases build (.feature .std) <;> simp
  refine ⟨hiff, ?_⟩
  intro hno S b name un hsg ht r cs hr hmem method uri w res h
  obtain ⟨out, w'⟩ := res
  have hrun : Runs (cfgOf build) (b.env name un true) w uri cs := by
    rw [authorize_runWith, runWith_ok_iff hsg hr] at h
    exact h.1
  apply hrun.clock
  refine ⟨?_, List.any_eq_true.mpr ⟨_, hmem, by simp [needsClock, Builder.env, ht]⟩⟩
  cases hc : (cfgOf build).clock with
  | none => rfl
  | js => exact absurd (hiff.mp (by simp [hc])) hno
  | std => exact absurd (hiff.mp (by simp [hc])) hno

example (uri : Display) (w : World) (res : Bytes × World) :
    (Builder.new (.new b!"k" b!"s") hmacSha1).authorize (cfgOf noStd) b!"GET" uri
      (AssertSorted.request Case.cfg []) w ≠ .ok res :=
  C79_clock.2 (by rw [← clockPred_eval]; decide) (constSign_hmac _) rfl
    (isTrace_assertSorted _ _) (by decide) _ uri w res

end OAuth
