import Verif.Spec.Fmt
import Verif.Properties.Writers

/-
C98: values whose `Display` implementation goes on after a failed write.
-/

namespace OAuth

open Spec

variable {W : Type}

/-! ### Formatting on a writer that accepts everything -/

theorem forget_writeAll_append (wr : Writer W) (w : W) (l₁ l₂ : List Bytes) :
    wr.writeAll w (l₁ ++ l₂) = (wr.writeAll w l₁).bind fun d => wr.writeAll d l₂ := by
  induction l₁ generalizing w with
  | nil => rfl
  | cons c l₁ ih =>
    simp only [List.cons_append, Writer.writeAll]
    cases wr.writeStr w c with
    | none => rfl
    | some d => exact ih d

theorem shows_andThen (v g : Fmt) : shows (v.andThen g) = shows v ++ shows g := by
  induction v with
  | ret o => cases o <;> rfl
  | write s next ih =>
    show Display.mk (s :: (shows ((next true).andThen g)).chunks) (shows ((next true).andThen g)).outcome = _
    rw [ih true]
    show _ = Display.append _ _
    simp only [Display.append_def, Display.append, shows]
    cases ho : (shows (next true)).outcome <;> simp [ho]

theorem shows_pieces (cs : List Bytes) (next : Bool → Fmt) :
    shows (Fmt.pieces cs .ok next) =
      { chunks := cs ++ (shows (next true)).chunks, outcome := (shows (next true)).outcome } := by
  induction cs with
  | nil => rfl
  | cons c cs ih => simp only [Fmt.pieces, shows, if_true, ih, List.cons_append]

theorem shows_adapt {f : Bytes → Display} (hf : ∀ s, (f s).outcome = .ok) (v : Fmt) :
    shows (v.adapt f) = OAuth.adapt f (shows v).outcome (shows v).chunks := by
  induction v with
  | ret o => rfl
  | write s next ih =>
    simp only [Fmt.adapt, hf, shows_pieces, ih, shows, OAuth.adapt]
    show _ = Display.append _ _
    simp only [Display.append, hf]

/-- Encoding what is shown is showing what is encoded. -/
theorem shows_percentEncode (v : Fmt) : shows v.percentEncode = percentEncode (shows v) :=
  shows_adapt percentEncodeStr_outcome v

theorem run_unfailing {wr : AnyWriter W} (h : Unfailing wr) (v : Fmt) (w : W) :
    ∃ w', v.run wr w = ((shows v).outcome, w') ∧ (forget wr).writeAll w (shows v).chunks = some w' := by
  induction v generalizing w with
  | ret o => exact ⟨w, rfl, rfl⟩
  | write s next ih =>
    obtain ⟨w', h1, h2⟩ := ih true (wr.writeStr w s).2
    refine ⟨w', ?_, ?_⟩
    · simp only [Fmt.run, h w s, h1, shows]
    · simp only [shows, Writer.writeAll, forget, h w s, if_true]
      exact h2

/-- On a writer that never fails a `Display` is what it shows there. -/
theorem writeUnwrap_unfailing {wr : AnyWriter W} (h : Unfailing wr) (v : Fmt) (w : W) :
    wr.writeUnwrap w v = (forget wr).writeUnwrap w (shows v) := by
  obtain ⟨w', h1, h2⟩ := run_unfailing h v w
  simp only [AnyWriter.writeUnwrap, h1, Writer.writeUnwrap, h2]
  cases (shows v).outcome <;> rfl

/-! ### Formatting that reports failures -/

theorem neverOk_run {v : Fmt} (h : NeverOk v) (wr : AnyWriter W) (w : W) : (v.run wr w).1 ≠ .ok := by
  induction v generalizing w with
  | ret o => exact h
  | write s next ih =>
    simp only [Fmt.run]
    cases (wr.writeStr w s).1 with
    | true => exact ih true h.1 _
    | false => exact ih false h.2 _

theorem honest_run {v : Fmt} (h : Honest v) (wr : AnyWriter W) {w w' : W} (hr : v.run wr w = (.ok, w')) :
    (shows v).outcome = .ok ∧ (forget wr).writeAll w (shows v).chunks = some w' := by
  induction v generalizing w with
  | ret o =>
    simp only [Fmt.run, Prod.mk.injEq] at hr
    obtain ⟨rfl, rfl⟩ := hr
    exact ⟨rfl, rfl⟩
  | write s next ih =>
    simp only [Fmt.run] at hr
    cases hs : (wr.writeStr w s).1 with
    | true =>
      rw [hs] at hr
      obtain ⟨h1, h2⟩ := ih true h.1 hr
      refine ⟨h1, ?_⟩
      simp only [shows, Writer.writeAll, forget, hs, if_true]
      exact h2
    | false =>
      rw [hs] at hr
      exact absurd (congrArg Prod.fst hr) (neverOk_run h.2 wr _)

theorem neverOk_andThen {v : Fmt} (h : NeverOk v) (g : Fmt) : NeverOk (v.andThen g) := by
  induction v with
  | ret o => cases o <;> first | exact absurd rfl h | exact h
  | write s next ih => exact ⟨ih true h.1, ih false h.2⟩

theorem honest_andThen {v g : Fmt} (hv : Honest v) (hg : Honest g) : Honest (v.andThen g) := by
  induction v with
  | ret o => cases o <;> first | exact hg | exact trivial
  | write s next ih => exact ⟨ih true hv.1, neverOk_andThen hv.2 g⟩

theorem honest_ofStr (s : Bytes) : Honest (.ofStr s) := ⟨trivial, fun h => nomatch h⟩

theorem shows_ofStr (s : Bytes) : shows (.ofStr s) = .ofBytes s := rfl

theorem neverOk_pieces (cs : List Bytes) {next : Bool → Fmt} (h1 : NeverOk (next true)) (h2 : NeverOk (next false)) :
    NeverOk (Fmt.pieces cs .ok next) := by
  induction cs with
  | nil => exact h1
  | cons c cs ih => exact ⟨ih, h2⟩

theorem honest_pieces (cs : List Bytes) {next : Bool → Fmt} (h1 : Honest (next true)) (h2 : NeverOk (next false)) :
    Honest (Fmt.pieces cs .ok next) := by
  induction cs with
  | nil => exact h1
  | cons c cs ih => exact ⟨ih, h2⟩

theorem neverOk_adapt {f : Bytes → Display} (hf : ∀ s, (f s).outcome = .ok) {v : Fmt} (h : NeverOk v) :
    NeverOk (v.adapt f) := by
  induction v with
  | ret o => exact h
  | write s next ih =>
    simp only [Fmt.adapt, hf]
    exact neverOk_pieces _ (ih true h.1) (ih false h.2)

/-- Encoding a value that reports failures reports failures. -/
theorem honest_percentEncode {v : Fmt} (h : Honest v) : Honest v.percentEncode := by
  unfold Fmt.percentEncode
  induction v with
  | ret o => exact trivial
  | write s next ih =>
    simp only [Fmt.adapt, percentEncodeStr_outcome]
    exact honest_pieces _ (ih true h.1) (neverOk_adapt percentEncodeStr_outcome h.2)

/-! ### The serializer -/

/-- The fragments a call writes, if none fails. -/
def callChunks (a : Append) (c : FmtCall) : List Bytes :=
  (match a with | .none => [] | .question => [b!"?"] | .ampersand => [b!"&"]) ++
    match c with
    | .parameter k v => k :: b!"=" :: (shows v.percentEncode).chunks
    | .parameterEncoded k v => k :: b!"=" :: (shows v).chunks

/-- The fragments of all calls. -/
def callsChunks : Append → List FmtCall → List Bytes
  | _, [] => []
  | a, c :: cs => callChunks a c ++ callsChunks .ampersand cs

/-- What is written by a call, as one formatting; `append_delim` and `write!` both unwrap. -/
def callFmt (a : Append) (c : FmtCall) : Fmt :=
  let body := match c with
    | .parameter k v => (Fmt.ofStr k).andThen ((Fmt.ofStr b!"=").andThen v.percentEncode)
    | .parameterEncoded k v => (Fmt.ofStr k).andThen ((Fmt.ofStr b!"=").andThen v)
  match a with
  | .none => body
  | .question => (Fmt.ofStr b!"?").andThen body
  | .ampersand => (Fmt.ofStr b!"&").andThen body

theorem andThen_run (wr : AnyWriter W) (v g : Fmt) (w : W) :
    (v.andThen g).run wr w = match v.run wr w with
      | (.ok, w') => g.run wr w'
      | (o, w') => (o, w') := by
  induction v generalizing w with
  | ret o => cases o <;> rfl
  | write s next ih => exact ih _ _

theorem writeUnwrap_andThen (wr : AnyWriter W) (v g : Fmt) (w : W) :
    wr.writeUnwrap w (v.andThen g) = wr.writeUnwrap w v >>= fun w => wr.writeUnwrap w g := by
  simp only [AnyWriter.writeUnwrap, andThen_run]
  rcases v.run wr w with ⟨o, w'⟩
  cases o <;> rfl

/-- The serializer writes call after call. -/
theorem urlencodeAny_cons (wr : AnyWriter W) (c : FmtCall) (cs : List FmtCall) (w : W) (a : Append) :
    urlencodeAny wr (c :: cs) ⟨w, a⟩ =
      wr.writeUnwrap w (callFmt a c) >>= fun w => urlencodeAny wr cs ⟨w, .ampersand⟩ := by
  cases c with
  | parameter k v =>
    simp only [urlencodeAny, AnyWriter.parameter, AnyWriter.appendDelim, callFmt]
    cases a with
    | none =>
      simp only [bind, Except.bind]
      cases wr.writeUnwrap w _ <;> rfl
    | question =>
      simp only [writeUnwrap_andThen, bind, Except.bind]
      cases wr.writeUnwrap w (Fmt.ofStr b!"?") with
      | error p => rfl
      | ok w' =>
        simp only []
        cases wr.writeUnwrap w' (Fmt.ofStr k) with
        | error p => rfl
        | ok w' =>
          simp only []
          cases wr.writeUnwrap w' (Fmt.ofStr b!"=") with
          | error p => rfl
          | ok w' =>
            simp only []
            cases wr.writeUnwrap w' v.percentEncode <;> rfl
    | ampersand =>
      simp only [writeUnwrap_andThen, bind, Except.bind]
      cases wr.writeUnwrap w (Fmt.ofStr b!"&") with
      | error p => rfl
      | ok w' =>
        simp only []
        cases wr.writeUnwrap w' (Fmt.ofStr k) with
        | error p => rfl
        | ok w' =>
          simp only []
          cases wr.writeUnwrap w' (Fmt.ofStr b!"=") with
          | error p => rfl
          | ok w' =>
            simp only []
            cases wr.writeUnwrap w' v.percentEncode <;> rfl
  | parameterEncoded k v =>
    simp only [urlencodeAny, AnyWriter.parameterEncoded, AnyWriter.appendDelim, callFmt]
    cases a with
    | none =>
      simp only [bind, Except.bind]
      cases wr.writeUnwrap w _ <;> rfl
    | question =>
      simp only [writeUnwrap_andThen, bind, Except.bind]
      cases wr.writeUnwrap w (Fmt.ofStr b!"?") with
      | error p => rfl
      | ok w' =>
        simp only []
        cases wr.writeUnwrap w' (Fmt.ofStr k) with
        | error p => rfl
        | ok w' =>
          simp only []
          cases wr.writeUnwrap w' (Fmt.ofStr b!"=") with
          | error p => rfl
          | ok w' =>
            simp only []
            cases wr.writeUnwrap w' v <;> rfl
    | ampersand =>
      simp only [writeUnwrap_andThen, bind, Except.bind]
      cases wr.writeUnwrap w (Fmt.ofStr b!"&") with
      | error p => rfl
      | ok w' =>
        simp only []
        cases wr.writeUnwrap w' (Fmt.ofStr k) with
        | error p => rfl
        | ok w' =>
          simp only []
          cases wr.writeUnwrap w' (Fmt.ofStr b!"=") with
          | error p => rfl
          | ok w' =>
            simp only []
            cases wr.writeUnwrap w' v <;> rfl

theorem shows_callFmt (a : Append) (c : FmtCall) :
    shows (callFmt a c) = { chunks := callChunks a c, outcome := (shows (formatted c)).outcome } := by
  cases a <;> cases c <;>
    simp only [callFmt, shows_andThen, shows_ofStr, callChunks, formatted] <;> rfl

theorem honest_callFmt {c : FmtCall} (h : Honest (formatted c)) (a : Append) : Honest (callFmt a c) := by
  have hbody : ∀ k v, Honest v → Honest ((Fmt.ofStr k).andThen ((Fmt.ofStr b!"=").andThen v)) := fun k v hv =>
    honest_andThen (honest_ofStr _) (honest_andThen (honest_ofStr _) hv)
  cases c <;> cases a <;>
    first | exact hbody _ _ h | exact honest_andThen (honest_ofStr _) (hbody _ _ h)

theorem writeUnwrap_ok {wr : AnyWriter W} {w w' : W} {v : Fmt} (h : wr.writeUnwrap w v = .ok w') :
    v.run wr w = (.ok, w') := by
  unfold AnyWriter.writeUnwrap at h
  rcases hv : v.run wr w with ⟨o, w1⟩
  rw [hv] at h
  cases o with
  | ok => cases h; rfl
  | err => cases h
  | panic p => cases h

/-- With values that report failures, all or nothing. -/
theorem honest_urlencode (wr : AnyWriter W) {cs : List FmtCall} (h : ∀ c ∈ cs, Honest (formatted c)) {w w' : W}
    {a : Append} (hr : urlencodeAny wr cs ⟨w, a⟩ = .ok w') :
    (forget wr).writeAll w (callsChunks a cs) = some w' := by
  induction cs generalizing w a with
  | nil => cases hr; rfl
  | cons c cs ih =>
    rw [urlencodeAny_cons] at hr
    cases hx : wr.writeUnwrap w (callFmt a c) with
    | error p => rw [hx] at hr; cases hr
    | ok w1 =>
      rw [hx] at hr
      have h1 := (honest_run (honest_callFmt (h c (by simp)) a) wr (writeUnwrap_ok hx)).2
      rw [shows_callFmt] at h1
      rw [callsChunks, forget_writeAll_append, h1]
      exact ih (fun c hc => h c (by simp [hc])) hr

theorem unfailing_urlencode {wr : AnyWriter W} (hu : Unfailing wr) {cs : List FmtCall}
    (h : ∀ c ∈ cs, (shows (formatted c)).outcome = .ok) (w : W) (a : Append) :
    ∃ w', urlencodeAny wr cs ⟨w, a⟩ = .ok w' ∧ (forget wr).writeAll w (callsChunks a cs) = some w' := by
  induction cs generalizing w a with
  | nil => exact ⟨w, rfl, rfl⟩
  | cons c cs ih =>
    obtain ⟨w1, h1, h2⟩ := run_unfailing hu (callFmt a c) w
    rw [shows_callFmt] at h1 h2
    simp only [h c (by simp)] at h1
    obtain ⟨w2, h3, h4⟩ := ih (fun c hc => h c (by simp [hc])) w1 .ampersand
    refine ⟨w2, ?_, ?_⟩
    · rw [urlencodeAny_cons, AnyWriter.writeUnwrap, h1]
      exact h3
    · rw [callsChunks, forget_writeAll_append, h2]
      exact h4

theorem unfailing_string : Unfailing stringAnyWriter := fun _ _ => rfl

theorem string_urlencode {cs : List FmtCall} (h : ∀ c ∈ cs, (shows (formatted c)).outcome = .ok) (w : Bytes)
    (a : Append) : urlencodeAny stringAnyWriter cs ⟨w, a⟩ = .ok (w ++ (callsChunks a cs).flatten) := by
  obtain ⟨w', h1, h2⟩ := unfailing_urlencode unfailing_string h w a
  have e : forget stringAnyWriter = stringWriter := rfl
  rw [e, stringWriter_writeAll] at h2
  cases h2
  exact h1

/-! ### A writer that follows a script -/

/-- Answers the writes with the given results, and then always with success; the second part says whether a
write has failed. -/
def scripted : AnyWriter (List Bool × Bool) :=
  ⟨fun w _ => match w with
    | ([], f) => (true, ([], f))
    | (b :: bs, f) => (b, (bs, f || !b))⟩

theorem scripted_writes {w w' : List Bool × Bool} {cs : List Bytes} (h : Writes (forget scripted) w cs w')
    (hw : w.2 = false) : w'.2 = false := by
  induction h with
  | done => exact hw
  | @step d d1 d2 c cs h _ ih =>
    refine ih ?_
    obtain ⟨bs, f⟩ := d
    cases bs with
    | nil => simp only [forget, scripted, if_true, Option.some.injEq] at h; subst h; exact hw
    | cons b bs =>
      cases b with
      | true =>
        simp only [forget, scripted, if_true, Option.some.injEq] at h
        subst h
        simpa using hw
      | false => simp [forget, scripted] at h

theorem scripted_accepts (v : Fmt) (rest : List Bool) (f : Bool) :
    v.run scripted (List.replicate (shows v).chunks.length true ++ rest, f) = ((shows v).outcome, (rest, f)) := by
  induction v generalizing f with
  | ret o => rfl
  | write s next ih =>
    show (next true).run scripted (List.replicate (shows (next true)).chunks.length true ++ rest, f || false) = _
    rw [ih true, Bool.or_false]
    rfl

theorem not_neverOk {v : Fmt} (h : ¬ NeverOk v) :
    ∃ path, ∀ rest, v.run scripted (path ++ rest, true) = (.ok, (rest, true)) := by
  induction v with
  | ret o =>
    have : o = .ok := Classical.byContradiction h
    subst this
    exact ⟨[], fun _ => rfl⟩
  | write s next ih =>
    by_cases h1 : NeverOk (next true)
    · obtain ⟨path, hp⟩ := ih false fun h2 => h ⟨h1, h2⟩
      exact ⟨false :: path, fun rest => hp rest⟩
    · obtain ⟨path, hp⟩ := ih true h1
      exact ⟨true :: path, fun rest => hp rest⟩

theorem not_honest {v : Fmt} (h : ¬ Honest v) :
    ∃ path, ∀ rest, v.run scripted (path ++ rest, false) = (.ok, (rest, true)) := by
  induction v with
  | ret o => exact absurd trivial h
  | write s next ih =>
    by_cases h1 : Honest (next true)
    · obtain ⟨path, hp⟩ := not_neverOk fun h2 => h ⟨h1, h2⟩
      exact ⟨false :: path, fun rest => hp rest⟩
    · obtain ⟨path, hp⟩ := ih true h1
      exact ⟨true :: path, fun rest => hp rest⟩

theorem not_honest_callFmt {c : FmtCall} (h : ¬ Honest (formatted c)) (a : Append) :
    ¬ Honest (callFmt a c) := by
  have str : ∀ s g, Honest ((Fmt.ofStr s).andThen g) → Honest g := fun _ _ h => h.1
  cases c <;> cases a <;> intro hc <;> refine h ?_
  · exact str _ _ (str _ _ hc)
  · exact str _ _ (str _ _ (str _ _ hc))
  · exact str _ _ (str _ _ (str _ _ hc))
  · exact str _ _ (str _ _ hc)
  · exact str _ _ (str _ _ (str _ _ hc))
  · exact str _ _ (str _ _ (str _ _ hc))

/-- Once a write has failed, everything else may succeed. -/
theorem scripted_after {cs : List FmtCall} (h : ∀ c ∈ cs, (shows (formatted c)).outcome = .ok) (a : Append) :
    urlencodeAny scripted cs ⟨([], true), a⟩ = .ok ([], true) := by
  induction cs generalizing a with
  | nil => rfl
  | cons c cs ih =>
    have h1 := scripted_accepts (callFmt a c) [] true
    have hnil : ∀ v : Fmt, v.run scripted ([], true) = ((shows v).outcome, ([], true)) := by
      intro v
      induction v with
      | ret o => rfl
      | write s next ih => exact ih true
    rw [urlencodeAny_cons, AnyWriter.writeUnwrap, hnil, shows_callFmt, h c (by simp)]
    exact ih (fun c hc => h c (by simp [hc])) _

theorem exists_truncated {cs : List FmtCall} (h : ∀ c ∈ cs, (shows (formatted c)).outcome = .ok)
    {bad : FmtCall} (hm : bad ∈ cs) (hb : ¬ Honest (formatted bad)) (a : Append) :
    ∃ script, urlencodeAny scripted cs ⟨(script, false), a⟩ = .ok ([], true) := by
  induction cs generalizing a with
  | nil => cases hm
  | cons c cs ih =>
    by_cases hc : Honest (formatted c)
    · have hm' : bad ∈ cs := by
        rcases List.mem_cons.mp hm with rfl | hm
        · exact absurd hc hb
        · exact hm
      obtain ⟨script, hs⟩ := ih (fun c hc => h c (by simp [hc])) hm' .ampersand
      refine ⟨List.replicate (shows (callFmt a c)).chunks.length true ++ script, ?_⟩
      rw [urlencodeAny_cons, AnyWriter.writeUnwrap, scripted_accepts, shows_callFmt, h c (by simp)]
      exact hs
    · obtain ⟨path, hp⟩ := not_honest (not_honest_callFmt hc a)
      refine ⟨path, ?_⟩
      have := hp []
      rw [List.append_nil] at this
      rw [urlencodeAny_cons, AnyWriter.writeUnwrap, this]
      exact scripted_after (fun c hc => h c (by simp [hc])) _

/-! ### The claim -/

/-- What C36 says of a form or query, for a buffer of any type: if the call returns, all of the text that the
string version gives has been written. -/
def Whole (cs : List FmtCall) (a : Append) : Prop :=
  ∀ s, urlencodeAny stringAnyWriter cs ⟨[], a⟩ = .ok s →
    ∀ (W : Type) (wr : AnyWriter W) (buf buf' : W), urlencodeAny wr cs ⟨buf, a⟩ = .ok buf' →
      ∃ writes : List Bytes, writes.flatten = s ∧ Writes (forget wr) buf writes buf'

/-- C98, the claim: for every request, whatever its values are; `form_with_buf` and `query`. -/
def C98_claim : Prop := ∀ cs a, Whole cs a

/-- C98, exactly: a form or query (for requests whose values can be formatted) is never truncated if and only
if no value, as it is written, returns `Ok` after a failed write. -/
theorem C98_iff {cs : List FmtCall} (h : ∀ c ∈ cs, (shows (formatted c)).outcome = .ok) (a : Append) :
    Whole cs a ↔ ∀ c ∈ cs, Honest (formatted c) := by
  constructor
  · intro hw c hc
    apply Classical.byContradiction
    intro hb
    obtain ⟨script, hs⟩ := exists_truncated h hc hb a
    obtain ⟨writes, -, hwr⟩ := hw _ (string_urlencode h [] a) _ scripted _ _ hs
    exact absurd (scripted_writes hwr rfl) (by simp)
  · intro hh s hs W wr buf buf' hr
    rw [string_urlencode h] at hs
    cases hs
    exact ⟨callsChunks a cs, by simp, (writes_iff _ _ _ _).mpr (honest_urlencode wr hh hr)⟩

/-- C98, the provable part: with values that report failed writes, all of the text is written or the call
panics, whatever the buffer does. -/
theorem C98_partial {cs : List FmtCall} (h : ∀ c ∈ cs, Honest (formatted c)) (a : Append) : Whole cs a := by
  intro s hs W wr buf buf' hr
  have h1 := honest_urlencode wr h hr
  have h2 := honest_urlencode stringAnyWriter h hs
  have e : forget stringAnyWriter = stringWriter := rfl
  rw [e, stringWriter_writeAll] at h2
  cases h2
  exact ⟨_, by simp, (writes_iff _ _ _ _).mpr h1⟩

/-- A `parameter` is percent encoded; that does not hide a failed write that the value reports. -/
theorem C98_encoded {v : Fmt} (h : Honest v) (k : Bytes) :
    Honest (formatted (.parameter k v)) ∧ Honest (formatted (.parameterEncoded k v)) :=
  ⟨honest_percentEncode h, h⟩

/-- A buffer of limited size: it refuses what does not fit, and can be written to again. -/
def boundedAnyWriter (cap : Nat) : AnyWriter Bytes :=
  ⟨fun w s => if w.length + s.length ≤ cap then (true, w ++ s) else (false, w)⟩

/-- `impl Display` with `let _ = f.write_str("secret"); Ok(())`. -/
def heedless : Fmt := .write b!"secret" fun _ => .ret .ok

/-- C98 as a claim about every request is false: with `heedless` as the value of `a` the string version is
`a=secret&b=2`; with a buffer of 6 bytes the call returns `a=&b=2`, without a panic. -/
theorem C98_violated :
    ¬ C98_claim ∧
    (let cs : List FmtCall := [.parameter b!"a" heedless, .parameter b!"b" (.ofStr b!"2")]
     urlencodeAny stringAnyWriter cs (.formWithBuf []) = .ok b!"a=secret&b=2" ∧
     urlencodeAny (boundedAnyWriter 6) cs (.formWithBuf []) = .ok b!"a=&b=2" ∧
     urlencodeAny stringAnyWriter cs (.query []) = .ok b!"?a=secret&b=2" ∧
     urlencodeAny (boundedAnyWriter 7) cs (.query []) = .ok b!"?a=&b=2") := by
  refine ⟨?_, rfl, rfl, rfl, rfl⟩
  intro h
  have h1 := (C98_iff (cs := [.parameter b!"a" heedless]) (by decide +kernel) .none).mp (h _ _) _
    List.mem_cons_self
  simp [heedless, formatted, Fmt.percentEncode, Fmt.adapt, percentEncodeStr_outcome] at h1
  revert h1
  have e : (percentEncodeStr b!"secret").chunks = [b!"secret"] := by decide +kernel
  rw [e]
  exact fun h1 => h1.2 rfl

/-- What the values of a request show on a writer that never fails. -/
def showsCall : FmtCall → Call
  | .parameter k v => .parameter k (shows v)
  | .parameterEncoded k v => .parameterEncoded k (shows v)

theorem concat_ofBytes (a b : Bytes) (z : Display) :
    Display.concat [.ofBytes a, .ofBytes b, z] = ⟨a :: b :: z.chunks, z.outcome⟩ := by
  obtain ⟨zc, zo⟩ := z
  show Display.append (.ofBytes a) (Display.append (.ofBytes b) (Display.append ⟨zc, zo⟩ ⟨[], .ok⟩)) = _
  cases zo <;> simp [Display.append, Display.ofBytes]

theorem shows_pair (a b : Bytes) (v : Fmt) :
    shows ((Fmt.ofStr a).andThen ((Fmt.ofStr b).andThen v)) =
      Display.concat [.ofBytes a, .ofBytes b, shows v] := by
  rw [concat_ofBytes]
  rfl

theorem shows_doublePercentEncode (cfg : Cfg) (v : Fmt) :
    shows (v.doublePercentEncode cfg) = doublePercentEncode cfg (shows v) :=
  shows_adapt (fun c => (doubleLoop_spec cfg _ c (Nat.le_refl _)).2) v

theorem appendDelim_unfailing {wr : AnyWriter W} (h : Unfailing wr) (u : Urlencoder W) :
    wr.appendDelim u = u.appendDelim (forget wr) := by
  simp only [AnyWriter.appendDelim, Urlencoder.appendDelim, writeUnwrap_unfailing h, shows_ofStr]
  rfl

/-- C98: on a writer that never fails (as `String`) a form or query with any values whatsoever is the one with
what they show there: what the other properties say of requests whose values stop at a failed write holds for
every implementation of `Display`. -/
theorem C98_unfailing {wr : AnyWriter W} (h : Unfailing wr) (cs : List FmtCall) (u : Urlencoder W) (w : World) :
    (requestOf (cs.map showsCall)).serialize (Urlencoder.serializer (forget wr)) u w =
      (urlencodeAny wr cs u).map fun d => (d, w) := by
  induction cs generalizing u with
  | nil => rfl
  | cons c cs ih =>
    have step : ∀ x : Except Panic (Urlencoder W),
        ((liftM x : M (Urlencoder W)) >>= fun u =>
          (requestOf (cs.map showsCall)).serialize (Urlencoder.serializer (forget wr)) u) w =
          (x >>= urlencodeAny wr cs).map fun d => (d, w) := by
      intro x
      cases x with
      | error p => rfl
      | ok u => exact ih u
    cases c with
    | parameter k v =>
      have e : wr.parameter u k v = u.parameter (forget wr) k (shows v) := by
        simp only [AnyWriter.parameter, Urlencoder.parameter, appendDelim_unfailing h, writeUnwrap_unfailing h,
          shows_pair, shows_percentEncode]
      have := step (wr.parameter u k v)
      rw [e] at this
      simp only [requestOf, List.map_cons, runCalls, bind_assoc] at this ⊢
      refine Eq.trans this ?_
      rw [← e]
      rfl
    | parameterEncoded k v =>
      have e : wr.parameterEncoded u k v = u.parameterEncoded (forget wr) k (shows v) := by
        simp only [AnyWriter.parameterEncoded, Urlencoder.parameterEncoded, appendDelim_unfailing h,
          writeUnwrap_unfailing h, shows_pair]
      have := step (wr.parameterEncoded u k v)
      rw [e] at this
      simp only [requestOf, List.map_cons, runCalls, bind_assoc] at this ⊢
      refine Eq.trans this ?_
      rw [← e]
      rfl

/-- C98 for signatures: the digest's writer never fails, so every value is signed as what it shows. -/
theorem C98_signed {U : Type} (o : UpdateOps U) (cfg : Cfg) (u : U) (key : Bytes) (v : Fmt) :
    o.parameterAny u key (v.doublePercentEncode cfg) = o.parameter u key (doublePercentEncode cfg (shows v)) ∧
    o.parameterAny u key v.percentEncode = o.parameter u key (percentEncode (shows v)) := by
  have hu : Unfailing o.anyWriter := fun _ _ => rfl
  simp only [UpdateOps.parameterAny, UpdateOps.parameter, writeUnwrap_unfailing hu, shows_percentEncode,
    shows_doublePercentEncode]
  exact ⟨rfl, rfl⟩

/-- The values of `Model/Basic` as formatting: they stop at a failed write and report it. -/
def ofDisplay (d : Display) : Fmt :=
  d.chunks.foldr (fun c g => .write c fun ok => if ok then g else .ret .err) (.ret d.outcome)

/-- C98: the values all other properties speak of are among those that report failed writes, and on every
buffer whatsoever they do what the other properties say. -/
theorem C98_covers (d : Display) :
    Honest (ofDisplay d) ∧ shows (ofDisplay d) = d ∧
    ∀ (W : Type) (wr : AnyWriter W) (w : W), wr.writeUnwrap w (ofDisplay d) = (forget wr).writeUnwrap w d := by
  obtain ⟨cs, o⟩ := d
  induction cs with
  | nil => exact ⟨trivial, rfl, fun W wr w => by cases o <;> rfl⟩
  | cons c cs ih =>
    obtain ⟨h1, h2, h3⟩ := ih
    refine ⟨⟨h1, fun h => nomatch h⟩, ?_, ?_⟩
    · show Display.mk (c :: (shows (ofDisplay ⟨cs, o⟩)).chunks) (shows (ofDisplay ⟨cs, o⟩)).outcome = _
      rw [h2]
    · intro W wr w
      have h3 := h3 W wr (wr.writeStr w c).2
      simp only [AnyWriter.writeUnwrap, ofDisplay, List.foldr_cons, Fmt.run, Writer.writeUnwrap, Writer.writeAll,
        forget] at h3 ⊢
      cases hb : (wr.writeStr w c).1 with
      | false => rfl
      | true => exact h3

/-- Concrete cases: values that report failed writes (one that gives up, and one that tries something shorter
first and reports the failure all the same); one that reports it only when nothing else works is not honest. -/
example :
    let tries : Fmt := .write b!"long text" fun ok =>
      if ok then .ret .ok else .write b!"-" fun _ => .ret .err
    let falls : Fmt := .write b!"long text" fun ok =>
      if ok then .ret .ok else .write b!"-" fun ok => .ret (if ok then .ok else .err)
    Honest (.ofStr b!"v") ∧ Honest tries ∧ ¬ Honest falls ∧
    (shows falls).text = b!"long text" ∧
    urlencodeAny (boundedAnyWriter 4) [.parameterEncoded b!"a" falls] (.formWithBuf []) = .ok b!"a=-" ∧
    (urlencodeAny (boundedAnyWriter 4) [.parameterEncoded b!"a" tries] (.formWithBuf [])).toOption = none := by
  refine ⟨honest_ofStr _, ⟨trivial, ?_, ?_⟩, ?_, rfl, rfl, rfl⟩
  · exact fun h => nomatch h
  · exact fun h => nomatch h
  · exact fun h => h.2.1 rfl

/-- Concrete cases of writers that never fail. -/
example : Unfailing stringAnyWriter ∧ Unfailing (UpdateOps.anyWriter ⟨fun (u : Bytes) s => u ++ s⟩) ∧
    ¬ Unfailing (boundedAnyWriter 3) :=
  ⟨fun _ _ => rfl, fun _ _ => rfl, fun h => absurd (h [] b!"abcd") (by decide)⟩

/-- A concrete case of the hypothesis of `C98_iff`. -/
example : ∀ c ∈ [FmtCall.parameter b!"a" heedless, .parameter b!"b" (.ofStr b!"2 3")],
    (shows (formatted c)).outcome = .ok := by
  decide +kernel

end OAuth
