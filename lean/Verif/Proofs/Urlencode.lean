import Verif.Model.Builder
import Verif.Spec.Form
import Verif.Proofs.PercentEncoding
import Verif.Proofs.Trace

/-
Closed form of the form/query serializer over a `String`.
-/

namespace OAuth

open Spec

namespace Urlencoder

/-- Appends an item with the pending separator. -/
def push (u : Urlencoder Bytes) (item : Bytes) : Urlencoder Bytes :=
  match u.nextAppend with
  | .none => ⟨u.data ++ item, .ampersand⟩
  | .question => ⟨u.data ++ b!"?" ++ item, .ampersand⟩
  | .ampersand => ⟨u.data ++ b!"&" ++ item, .ampersand⟩

theorem appendDelim_string (u : Urlencoder Bytes) :
    u.appendDelim stringWriter = .ok (u.push []) := by
  obtain ⟨d, n⟩ := u
  cases n <;> simp [appendDelim, push, stringWriter_writeUnwrap, Outcome.check] <;> rfl

theorem push_push (u : Urlencoder Bytes) (item : Bytes) :
    (⟨(u.push []).data ++ item, (u.push []).nextAppend⟩ : Urlencoder Bytes) = u.push item := by
  obtain ⟨d, n⟩ := u
  cases n <;> simp [push]

theorem parameterEncoded_string (u : Urlencoder Bytes) (k : Bytes) (v : Display) :
    u.parameterEncoded stringWriter k v = v.outcome.check (u.push (k ++ b!"=" ++ v.text)) := by
  unfold parameterEncoded
  rw [appendDelim_string]
  simp only [bind, Except.bind, stringWriter_writeUnwrap]
  have ho : (Display.concat [.ofBytes k, .ofBytes b!"=", v]).outcome = v.outcome := by
    simp only [Display.concat_cons, Display.concat_nil]
    rw [Display.outcome_append_ok (by rfl), Display.outcome_append_ok (by rfl)]
    cases h : v.outcome with
    | ok => rw [Display.outcome_append_ok h]
    | err => rw [Display.append_not_ok (by simp [h]), h]
    | panic p => rw [Display.append_not_ok (by simp [h]), h]
  rw [ho]
  cases h : v.outcome with
  | ok =>
    simp only [Outcome.check, Display.concat_cons, Display.concat_nil]
    rw [Display.text_append_ok (by rfl), Display.text_append_ok (by rfl), Display.text_append_ok h]
    rw [← push_push u (k ++ b!"=" ++ v.text)]
    simp
  | err => rfl
  | panic p => rfl

theorem parameter_string (u : Urlencoder Bytes) (k : Bytes) (v : Display) :
    u.parameter stringWriter k v =
      v.outcome.check (u.push (k ++ b!"=" ++ encode v.text)) := by
  have : u.parameter stringWriter k v = u.parameterEncoded stringWriter k (percentEncode v) := rfl
  rw [this, parameterEncoded_string]
  simp

theorem run_string (cs : List Call) (u : Urlencoder Bytes) :
    runCalls (serializer stringWriter) cs u =
      match firstFailure cs with
      | some p => panicM p
      | none => pure ((cs.filterMap Call.formItem?).foldl push u) := by
  induction cs generalizing u with
  | nil => rfl
  | cons c cs ih =>
    have hstep : ∀ (v : Display) (u' : Urlencoder Bytes),
        (liftM (v.outcome.check u') >>= fun s => runCalls (serializer stringWriter) cs s) =
        match (match v.outcome with
          | .ok => firstFailure cs | .err => some .fmtUnwrap | .panic p => some p) with
        | some p => panicM p
        | none => pure ((cs.filterMap Call.formItem?).foldl push u') := by
      intro v u'
      cases v.outcome with
      | ok => simp only [Outcome.check, liftOk, pure_bind, ih]
      | err => rfl
      | panic p => rfl
    cases c with
    | parameter k v =>
      show (liftM (u.parameter stringWriter k v) >>= fun s => runCalls (serializer stringWriter) cs s) = _
      rw [parameter_string, hstep]
      simp only [firstFailure, List.findSome?_cons, Call.failure?, Call.value?,
        List.filterMap_cons, Call.formItem?, List.foldl_cons]
      cases v.outcome <;> rfl
    | parameterEncoded k v =>
      show (liftM (u.parameterEncoded stringWriter k v) >>= fun s => runCalls (serializer stringWriter) cs s) = _
      rw [parameterEncoded_string, hstep]
      simp only [firstFailure, List.findSome?_cons, Call.failure?, Call.value?,
        List.filterMap_cons, Call.formItem?, List.foldl_cons]
      cases v.outcome <;> rfl
    | oauth p =>
      have : Call.run (serializer stringWriter) (.oauth p) u = pure u := by cases p <;> rfl
      simp only [runCalls, this, pure_bind, ih]
      rfl

theorem foldl_push_ampersand (d : Bytes) (items : List Bytes) :
    (items.foldl push ⟨d, .ampersand⟩).data = d ++ (items.map (b!"&" ++ ·)).flatten := by
  induction items generalizing d with
  | nil => simp
  | cons i is ih => simp only [List.foldl_cons, push, ih]; simp

end Urlencoder

namespace Spec

theorem join_cons (sep p : Bytes) (ps : List Bytes) :
    join sep (p :: ps) = p ++ (ps.map (sep ++ ·)).flatten := by
  induction ps generalizing p with
  | nil => simp [join]
  | cons q qs ih => simp [join, ih]

end Spec

namespace Urlencoder

theorem foldl_push_none (d : Bytes) (items : List Bytes) :
    (items.foldl push ⟨d, .none⟩).data = d ++ formOf items := by
  cases items with
  | nil => simp [formOf, join]
  | cons i is => simp only [List.foldl_cons, push, foldl_push_ampersand, formOf, join_cons]; simp

theorem foldl_push_question (d : Bytes) (items : List Bytes) :
    (items.foldl push ⟨d, .question⟩).data = queryOf d items := by
  cases items with
  | nil => simp [queryOf]
  | cons i is =>
    simp only [List.foldl_cons, push, foldl_push_ampersand, formOf, join_cons, queryOf]; simp

end Urlencoder

/-- `to_form` of a request making the calls `cs`. -/
theorem toForm_eq {r : Request} {cs : List Call} (h : IsTrace r cs) :
    Free.toForm r = match firstFailure cs with
      | some p => panicM p
      | none => pure (formOf (cs.filterMap Call.formItem?)) := by
  rw [Free.toForm, h, Urlencoder.run_string]
  cases firstFailure cs with
  | some p => rfl
  | none =>
    simp only [pure_bind, Urlencoder.serializer, Urlencoder.form, Urlencoder.foldl_push_none]
    rfl

/-- `to_query` of a request making the calls `cs`. -/
theorem toQuery_eq {r : Request} {cs : List Call} (h : IsTrace r cs) (uri : Bytes) :
    Free.toQuery uri r = match firstFailure cs with
      | some p => panicM p
      | none => pure (queryOf uri (cs.filterMap Call.formItem?)) := by
  rw [Free.toQuery, h, Urlencoder.run_string]
  cases firstFailure cs with
  | some p => rfl
  | none =>
    simp only [pure_bind, Urlencoder.serializer, Urlencoder.query, Urlencoder.foldl_push_question]

end OAuth
