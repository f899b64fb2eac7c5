import Verif.Spec.Features

/-!
# Deciding what holds in all builds

A statement about few atoms is checked for all values of these atoms and of those they enable.
-/

namespace OAuth.Build

open OAuth.Spec

/-- All sublists. -/
def subs {α : Type} : List α → List (List α)
  | [] => [[]]
  | a :: l => subs l ++ (subs l).map (a :: ·)

theorem filter_mem_subs {α : Type} (p : α → Bool) (l : List α) : l.filter p ∈ subs l := by
  induction l with
  | nil => simp [subs]
  | cons a l ih =>
    by_cases h : p a = true
    · rw [List.filter_cons_of_pos h]
      exact List.mem_append_right _ (List.mem_map.mpr ⟨_, ih, rfl⟩)
    · rw [List.filter_cons_of_neg h]
      exact List.mem_append_left _ ih

/-- The atoms a predicate mentions. -/
def Pred.atoms : Pred → List Atom
  | .tt => []
  | .atom a => [a]
  | .not p => p.atoms
  | .and p q => p.atoms ++ q.atoms
  | .or p q => p.atoms ++ q.atoms

theorem Pred.eval_congr {b b' : Build} (p : Pred) (h : ∀ a ∈ p.atoms, b a = b' a) :
    p.eval b = p.eval b' := by
  induction p with
  | tt => rfl
  | atom a => exact h a (by simp [Pred.atoms])
  | not p ih => simp only [Pred.eval]; rw [ih h]
  | and p q ihp ihq =>
    simp only [Pred.eval]
    rw [ihp fun a ha => h a (List.mem_append_left _ ha), ihq fun a ha => h a (List.mem_append_right _ ha)]
  | or p q ihp ihq =>
    simp only [Pred.eval]
    rw [ihp fun a ha => h a (List.mem_append_left _ ha), ihq fun a ha => h a (List.mem_append_right _ ha)]

/-- The atoms to look at. -/
def relevant (p q : Pred) : List Atom :=
  let l := p.atoms ++ q.atoms
  let l := l ++ l.flatMap enables
  (l ++ l.flatMap enables).eraseDups

/-- `p` implies `q` for all values of the relevant atoms that respect `enables`. -/
def implies (p q : Pred) : Bool :=
  let l := relevant p q
  (p.atoms ++ q.atoms).all (fun a => l.contains a) &&
  (subs l).all fun σ =>
    let b : Build := fun a => σ.contains a
    !(l.all fun a => !b a || (enables a).all fun c => !l.contains c || b c) || !p.eval b || q.eval b

/-- A build respects `enables`. -/
def Closed (b : Build) : Prop := ∀ a, b a = true → ∀ c ∈ enables a, b c = true

theorem closed_of_isBuild {b : Build} (h : IsBuild b) : Closed b := by
  obtain ⟨s, hs⟩ := h
  intro a ha c hc
  exact (hs c).mpr (.implied ((hs a).mp ha) hc)

theorem implies_sound {p q : Pred} (h : implies p q = true) {b : Build} (hb : Closed b)
    (hp : p.eval b = true) : q.eval b = true := by
  simp only [implies, Bool.and_eq_true, List.all_eq_true] at h
  obtain ⟨hl, h⟩ := h
  have hmem : ∀ a ∈ relevant p q, ((relevant p q).filter b).contains a = b a := by
    intro a ha
    cases hba : b a with
    | true => simp [List.mem_filter, ha, hba]
    | false => simp [List.mem_filter, hba]
  have h := h _ (filter_mem_subs b (relevant p q))
  have e1 : p.eval (fun a => ((relevant p q).filter b).contains a) = p.eval b :=
    p.eval_congr fun a ha => hmem a (by simpa using hl a (List.mem_append_left _ ha))
  have e2 : q.eval (fun a => ((relevant p q).filter b).contains a) = q.eval b :=
    q.eval_congr fun a ha => hmem a (by simpa using hl a (List.mem_append_right _ ha))
  rw [e1, e2, hp] at h
  have h3 : ((relevant p q).all fun a => !((relevant p q).filter b).contains a ||
      (enables a).all fun c => !(relevant p q).contains c || ((relevant p q).filter b).contains c) =
      true := by
    simp only [List.all_eq_true]
    intro a ha
    rw [hmem a ha]
    cases hba : b a with
    | false => rfl
    | true =>
      simp only [Bool.not_true, Bool.false_or, List.all_eq_true]
      intro c hc
      by_cases hcl : c ∈ relevant p q
      · rw [hmem c hcl, hb a hba c hc, Bool.or_true]
      · simp [hcl]
  rw [h3] at h
  simpa using h

/-- False. -/
def ff : Pred := .not .tt

/-- A disjunction. -/
def orAll : List Pred → Pred
  | [] => ff
  | p :: l => .or p (orAll l)

theorem orAll_eval (b : Build) (l : List Pred) : (orAll l).eval b = true ↔ ∃ p ∈ l, p.eval b = true := by
  induction l with
  | nil => simp [orAll, ff, Pred.eval]
  | cons p l ih => simp [orAll, Pred.eval, ih]

/-- `HasItem` as a predicate. -/
def itemPred (ds : List Decl) (n : Name) : Pred :=
  orAll ((ds.filter fun d => decide (d.name = n)).map Decl.cfg)

theorem itemPred_eval (ds : List Decl) (b : Build) (n : Name) :
    (itemPred ds n).eval b = true ↔ HasItem ds b n := by
  simp only [itemPred, orAll_eval, List.mem_map, List.mem_filter, decide_eq_true_eq, HasItem]
  constructor
  · rintro ⟨p, ⟨d, ⟨h1, h2⟩, rfl⟩, h3⟩; exact ⟨d, h1, h2, h3⟩
  · rintro ⟨d, h1, h2, h3⟩; exact ⟨_, ⟨d, ⟨h1, h2⟩, rfl⟩, h3⟩

/-- `HasCrate` as a predicate. -/
def cratePred : Crate → Pred
  | .base64 | .cfgIf | .fmtCmp | .oauthCredentials | .percentEncoding | .rand => .tt
  | .requestDerive => feat .requestDerive
  | .either => feat .either
  | .digest => feat .digest
  | .hmac => feat .hmac
  | .sha1 => feat .sha1
  | .rsa06 => feat .rsa06
  | .rsa09 => feat .rsa09
  | .jsSys => .and (feat .jsSys) (.atom .wasm)
  | .serde => cred .credentialsSerde

/-- `Met` as a predicate. -/
def needPred (ds : List Decl) : Need → Pred
  | .krate c => cratePred c
  | .threadRng => .and (cred .randStd) (cred .randStdRng)
  | .sha1Oid => cred .sha1Oid
  | .item n => itemPred ds n
  | .absent n => .not (itemPred ds n)
  | .defaultString => cred .credentialsAlloc

theorem needPred_eval (ds : List Decl) (b : Build) (n : Need) :
    (needPred ds n).eval b = true ↔ Met ds b n := by
  cases n with
  | krate c => cases c <;> simp [needPred, cratePred, Met, HasCrate, Pred.eval, feat, cred]
  | threadRng => simp [needPred, Met, Pred.eval, cred]
  | sha1Oid => simp [needPred, Met, Pred.eval, cred]
  | item n => exact itemPred_eval ds b n
  | absent n =>
    simp only [needPred, Met, Pred.eval, ← itemPred_eval]
    cases (itemPred ds n).eval b <;> simp
  | defaultString => simp [needPred, Met, Pred.eval, cred]

/-- The check for `Resolves`. -/
def checkResolves (ds : List Decl) : Bool :=
  ds.all fun d => d.uses.all fun u => implies (.and d.cfg u.1) (needPred ds u.2)

theorem resolves_of_check {ds : List Decl} (h : checkResolves ds = true) {b : Build} (hb : Closed b) :
    Resolves ds b := by
  simp only [checkResolves, List.all_eq_true] at h
  intro d hd hcfg u hu hg
  exact (needPred_eval ds b u.2).mp (implies_sound (h d hd u hu) hb (by simp [Pred.eval, hcfg, hg]))

/-- The check for `NamesUnique`. -/
def checkUnique : List Decl → Bool
  | [] => true
  | d :: ds => (ds.all fun d' => !decide (d.name = d'.name) || implies (.and d.cfg d'.cfg) ff) &&
    checkUnique ds

theorem unique_of_check {ds : List Decl} (h : checkUnique ds = true) {b : Build} (hb : Closed b) :
    NamesUnique ds b := by
  induction ds with
  | nil => simp [NamesUnique]
  | cons d ds ih =>
    simp only [checkUnique, Bool.and_eq_true, List.all_eq_true] at h
    have ih := ih h.2
    simp only [NamesUnique] at ih ⊢
    by_cases hd : d.cfg.eval b = true
    · rw [List.filter_cons_of_pos (p := fun d : Decl => d.cfg.eval b) hd, List.map_cons, List.nodup_cons]
      refine ⟨?_, ih⟩
      intro hmem
      obtain ⟨d', hd', hn⟩ := List.mem_map.mp hmem
      obtain ⟨hmem', hcfg⟩ := List.mem_filter.mp hd'
      have h := h.1 d' hmem'
      rw [hn] at h
      simp only [decide_true, Bool.not_true, Bool.false_or] at h
      have := implies_sound h hb (by simp [Pred.eval, hd, hcfg])
      simp [ff, Pred.eval] at this
    · rw [List.filter_cons_of_neg (p := fun d : Decl => d.cfg.eval b) hd]
      exact ih

/-! ### Predicates without negation -/

/-- No negation. -/
def Pred.positive : Pred → Bool
  | .tt => true
  | .atom _ => true
  | .not _ => false
  | .and p q => p.positive && q.positive
  | .or p q => p.positive && q.positive

theorem Pred.positive_mono {b b' : Build} (h : ∀ a, b a = true → b' a = true) {p : Pred}
    (hp : p.positive = true) (he : p.eval b = true) : p.eval b' = true := by
  induction p with
  | tt => rfl
  | atom a => exact h a he
  | not p _ => cases hp
  | and p q ihp ihq =>
    simp only [Pred.positive, Bool.and_eq_true] at hp
    simp only [Pred.eval, Bool.and_eq_true] at he ⊢
    exact ⟨ihp hp.1 he.1, ihq hp.2 he.2⟩
  | or p q ihp ihq =>
    simp only [Pred.positive, Bool.and_eq_true] at hp
    simp only [Pred.eval, Bool.or_eq_true] at he ⊢
    exact he.imp (ihp hp.1) (ihq hp.2)

/-- When an item is there, without negation. -/
def positivePred (ds : List Decl) : Name → Pred
  | .credentials_std | .credentials_Credentials | .credentials_Token => .tt
  | .credentials_String => cred .credentialsAlloc
  | n => orAll' ((ds.filter fun d => decide (d.name = n)).map Decl.cfg)
where
  /-- A disjunction of at least one. -/
  orAll' : List Pred → Pred
    | [] => ff
    | [p] => p
    | p :: l => .or p (orAll' l)

/-- The check for `monotone_of_check`. -/
def checkMonotone (ds : List Decl) (except : List Name) : Bool :=
  ds.all fun d => except.contains d.name ||
    ((positivePred ds d.name).positive && implies d.cfg (positivePred ds d.name) &&
      implies (positivePred ds d.name) (itemPred ds d.name))

theorem monotone_of_check {ds : List Decl} {except : List Name} (h : checkMonotone ds except = true)
    {b b' : Build} (hb : Closed b) (hb' : Closed b') (hle : ∀ a, b a = true → b' a = true) {n : Name}
    (hn : n ∉ except) (hi : HasItem ds b n) : HasItem ds b' n := by
  obtain ⟨d, hd, rfl, hc⟩ := hi
  simp only [checkMonotone, List.all_eq_true] at h
  have h := h d hd
  simp only [Bool.or_eq_true, Bool.and_eq_true, List.contains_eq_mem, decide_eq_true_eq, hn,
    false_or] at h
  rw [← itemPred_eval]
  exact implies_sound h.2 hb' (Pred.positive_mono hle h.1.1 (implies_sound h.1.2 hb hc))

/-- `HasClock` as a predicate. -/
def clockPred : Pred := .or jsWasm (.and (feat .std) (.not (.atom .wasm)))

theorem clockPred_eval (b : Build) : clockPred.eval b = true ↔ HasClock b := by
  simp [clockPred, jsWasm, Pred.eval, feat, HasClock]

/-- `Works` as a predicate. -/
def worksPred (ds : List Decl) (e : Example) : Pred :=
  e.uses.foldr (fun n p => .and (needPred ds n) p) (if e.signsNow then clockPred else .tt)

theorem worksPred_eval (ds : List Decl) (b : Build) (e : Example) :
    (worksPred ds e).eval b = true ↔ Works ds b e := by
  have : ∀ (l : List Need) (p : Pred), (l.foldr (fun n p => Pred.and (needPred ds n) p) p).eval b = true ↔
      (∀ n ∈ l, Met ds b n) ∧ p.eval b = true := by
    intro l p
    induction l with
    | nil => simp
    | cons n l ih =>
      simp only [List.foldr_cons, Pred.eval, Bool.and_eq_true, ih, needPred_eval, List.mem_cons,
        forall_eq_or_imp, and_assoc]
  rw [worksPred, this, Works]
  cases e.signsNow <;> simp [Pred.eval, clockPred_eval]

theorem works_of_implies {ds : List Decl} {e : Example} {p : Pred} (h : implies p (worksPred ds e) = true)
    {b : Build} (hb : Closed b) (hp : p.eval b = true) : Works ds b e :=
  (worksPred_eval ds b e).mp (implies_sound h hb hp)

end OAuth.Build
