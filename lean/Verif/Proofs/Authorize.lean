import Verif.Proofs.Emit
import Verif.Proofs.TextOnly
import Verif.Model.Builder

/-
Closed form of a whole run of an authorizing serializer over a `String`.
-/

namespace OAuth

open Spec

variable {S : Type}

theorem annotate_fst (cfg : Cfg) (e : Env) (w : World) (cs : List Call) :
    (annotate cfg e w cs).map (·.1) = cs := by
  induction cs generalizing w with
  | nil => rfl
  | cons c cs ih => simp [annotate, ih]

theorem itemsFrom_signed (cfg : Cfg) (e : Env) (hname : ∀ b ∈ e.name, unreserved b = true)
    (w : World) (cs : List Call) :
    (itemsFrom cfg e w cs).map (fun i => (i.key, i.feed.render e.name)) =
      ((annotate cfg e w cs).filterMap fun r => r.1.signed? e r.2.1 r.2.2).map
        (fun kv => (kv.1, signedItem kv)) := by
  induction cs generalizing w with
  | nil => rfl
  | cons c cs ih =>
    have h := (itemIn_spec cfg e hname w c).1
    simp only [itemsFrom, annotate, List.map_append, List.filterMap_cons, ih]
    cases hi : itemIn cfg e w c with
    | none =>
      cases hs : c.signed? e w.nonce (w.time cfg) with
      | none => simp
      | some kv => simp [hi, hs] at h
    | some i =>
      cases hs : c.signed? e w.nonce (w.time cfg) with
      | none => simp [hi, hs] at h
      | some kv =>
        simp only [hi, hs, Option.map_some, Option.some.injEq] at h
        simp [h]

/-- The pairs sent for items. -/
def sentOf (items : List Item) : List (Bytes × Bytes) :=
  items.filterMap fun i => i.sent.map fun t => (i.key, t)

theorem itemsFrom_sent (cfg : Cfg) (e : Env) (hname : ∀ b ∈ e.name, unreserved b = true)
    (w : World) (cs : List Call) :
    sentOf (itemsFrom cfg e w cs) =
      (annotate cfg e w cs).filterMap fun r => r.1.sent? e r.2.1 r.2.2 := by
  induction cs generalizing w with
  | nil => rfl
  | cons c cs ih =>
    have h := (itemIn_spec cfg e hname w c).2
    simp only [sentOf] at ih
    simp only [sentOf, itemsFrom, annotate, List.filterMap_append, List.filterMap_cons, ih]
    rw [← h]
    cases hi : itemIn cfg e w c with
    | none => simp
    | some i =>
      cases hs : i.sent with
      | none => simp [hs]
      | some kv => simp [hs]

theorem itemsFrom_keys (cfg : Cfg) (e : Env) (hname : ∀ b ∈ e.name, unreserved b = true)
    (w : World) (cs : List Call) :
    (itemsFrom cfg e w cs).map Item.key =
      ((annotate cfg e w cs).filterMap fun r => r.1.signed? e r.2.1 r.2.2).map (·.1) := by
  have h := congrArg (List.map Prod.fst) (itemsFrom_signed cfg e hname w cs)
  simpa [List.map_map, Function.comp_def] using h

/-- The text of the calls made on the signing algorithm. -/
theorem signCalls_render (name : Bytes) (items : List Item) :
    ((signCalls false items).map (SignCall.render name)).flatten =
      join b!"%26" (items.map fun i => i.feed.render name) := by
  have aux : ∀ is : List Item, ((signCalls true is).map (SignCall.render name)).flatten =
      (is.map fun i => b!"%26" ++ i.feed.render name).flatten := by
    intro is
    induction is with
    | nil => rfl
    | cons i is ih => simp [signCalls, ih, SignCall.render]
  cases items with
  | nil => rfl
  | cons i is =>
    simp only [signCalls, Bool.false_eq_true, if_false, List.nil_append, List.map_cons,
      List.flatten_cons, aux]
    clear aux
    induction is generalizing i with
    | nil => simp [join]
    | cons j is ih =>
      simp only [List.map_cons, List.flatten_cons, join]
      rw [← ih j]
      simp

/-! ### What is sent -/

/-- The output, given the text of the signature. -/
def Data.finish : Data Bytes → Bytes → Bytes
  | .authorization h, t => h ++ b!"oauth_signature=\"" ++ t ++ b!"\""
  | .urlencode ⟨d, .none⟩, t => d ++ b!"oauth_signature=" ++ t
  | .urlencode ⟨d, .question⟩, t => d ++ b!"?oauth_signature=" ++ t
  | .urlencode ⟨d, .ampersand⟩, t => d ++ b!"&oauth_signature=" ++ t

theorem endM_ok_iff (sg : Sign S) (a : Authorizer S Bytes) (out : Bytes) :
    a.endM stringWriter sg = .ok out ↔
      ∃ sig, sg.end a.sign = .ok sig ∧ sig.outcome = .ok ∧ out = a.data.finish sig.text := by
  unfold Authorizer.endM
  cases hd : a.data with
  | authorization h =>
    simp only [stringWriter_writeUnwrap, bind, Except.bind, Display.text_ofBytes]
    simp only [Display.ofBytes, Outcome.check]
    cases hs : sg.end a.sign with
    | error p => simp
    | ok sig =>
      have hc : (Display.concat [.ofBytes b!"\"", sig, .ofBytes b!"\""]).outcome = sig.outcome := by
        simp only [Display.concat_cons, Display.concat_nil]
        rw [Display.outcome_append_ok (by rfl)]
        cases hso : sig.outcome with
        | ok => rw [Display.outcome_append_ok hso]; rfl
        | err => simp [HAppend.hAppend, Append.append, Display.append, hso]
        | panic p => simp [HAppend.hAppend, Append.append, Display.append, hso]
      simp only [Display.ofBytes] at hc
      simp only [hc]
      cases hso : sig.outcome with
      | err => simp [Functor.map, Except.map, hso]
      | panic p => simp [Functor.map, Except.map, hso]
      | ok =>
        have ht : (Display.concat [⟨[b!"\""], .ok⟩, sig, ⟨[b!"\""], .ok⟩]).text =
            b!"\"" ++ sig.text ++ b!"\"" := by
          simp only [Display.concat_cons, Display.concat_nil]
          rw [Display.text_append_ok (by rfl), Display.text_append_ok hso,
            Display.text_append_ok (by rfl)]
          simp [Display.text]
        simp only [ht, Except.ok.injEq, exists_eq_left', hso, true_and, Functor.map, Except.map]
        simp only [Data.finish, List.append_assoc]
        exact eq_comm
  | urlencode enc =>
    simp only [bind, Except.bind]
    cases hs : sg.end a.sign with
    | error p => simp
    | ok sig =>
      simp only [Urlencoder.parameterEncoded_string]
      cases hso : sig.outcome with
      | err => simp [Outcome.check, Functor.map, Except.map, hso]
      | panic p => simp [Outcome.check, Functor.map, Except.map, hso]
      | ok =>
        simp only [Outcome.check, Except.ok.injEq, exists_eq_left', hso, true_and, Functor.map,
          Except.map]
        obtain ⟨d, n⟩ := enc
        cases n <;> simp [Data.finish, Urlencoder.push, eq_comm]

theorem join_cons_ne (sep p : Bytes) (l : List Bytes) (h : l ≠ []) :
    join sep (p :: l) = p ++ sep ++ join sep l := by
  cases l with
  | nil => exact absurd rfl h
  | cons q l => rfl

theorem sendAll_header (h : Bytes) (items : List Item) :
    Data.sendAll (.authorization h) items =
      .authorization (h ++ ((sentOf items).map headerItem).flatten) := by
  induction items generalizing h with
  | nil => simp [Data.sendAll, sentOf]
  | cons i is ih =>
    cases hs : i.sent with
    | none =>
      have e1 : Data.sendAll (.authorization h) (i :: is) = Data.sendAll (.authorization h) is := by
        simp [Data.sendAll, hs]
      have e2 : sentOf (i :: is) = sentOf is := by simp [sentOf, hs]
      rw [e1, e2, ih]
    | some t =>
      have e1 : Data.sendAll (.authorization h) (i :: is) =
          Data.sendAll (.authorization (h ++ i.key ++ b!"=\"" ++ t ++ b!"\",")) is := by
        simp [Data.sendAll, hs, Data.send]
      have e2 : sentOf (i :: is) = (i.key, t) :: sentOf is := by simp [sentOf, hs]
      rw [e1, e2, ih]
      simp [headerItem]

/-- The finished form or query: everything sent, and the signature last, joined with `&`. -/
theorem sendAll_finish_form (d : Bytes) (items : List Item) (t : Bytes) :
    (Data.sendAll (.urlencode ⟨d, .none⟩) items).finish t =
      d ++ join b!"&" ((sentOf items ++ [(b!"oauth_signature", t)]).map formItem) ∧
    (Data.sendAll (.urlencode ⟨d, .question⟩) items).finish t =
      d ++ b!"?" ++ join b!"&" ((sentOf items ++ [(b!"oauth_signature", t)]).map formItem) := by
  have amp : ∀ (is : List Item) (d : Bytes),
      (Data.sendAll (.urlencode ⟨d, .ampersand⟩) is).finish t =
        d ++ b!"&" ++ join b!"&" ((sentOf is ++ [(b!"oauth_signature", t)]).map formItem) := by
    intro is
    induction is with
    | nil => intro d; simp [Data.sendAll, sentOf, Data.finish, join, formItem]
    | cons i is ih =>
      intro d
      cases hs : i.sent with
      | none =>
        have e1 : Data.sendAll (.urlencode ⟨d, .ampersand⟩) (i :: is) =
          Data.sendAll (.urlencode ⟨d, .ampersand⟩) is := by simp [Data.sendAll, hs]
        have e2 : sentOf (i :: is) = sentOf is := by simp [sentOf, hs]
        rw [e1, e2, ih]
      | some x =>
        have e1 : Data.sendAll (.urlencode ⟨d, .ampersand⟩) (i :: is) =
          Data.sendAll (.urlencode ⟨d ++ b!"&" ++ i.key ++ b!"=" ++ x, .ampersand⟩) is := by
            simp [Data.sendAll, hs, Data.send]
        have e2 : sentOf (i :: is) = (i.key, x) :: sentOf is := by simp [sentOf, hs]
        rw [e1, e2, ih, List.cons_append, List.map_cons,
          join_cons_ne _ _ _ (by simp)]
        simp [formItem]
  induction items with
  | nil => simp [Data.sendAll, sentOf, Data.finish, join, formItem]
  | cons i is ih =>
    cases hs : i.sent with
    | none =>
      have e1 : ∀ x, Data.sendAll x (i :: is) = Data.sendAll x is := by simp [Data.sendAll, hs]
      have e2 : sentOf (i :: is) = sentOf is := by simp [sentOf, hs]
      rw [e1, e1, e2]; exact ih
    | some x =>
      have e1 : ∀ y, Data.sendAll y (i :: is) = Data.sendAll (y.send i.key x) is := by
        simp [Data.sendAll, hs]
      have e2 : sentOf (i :: is) = (i.key, x) :: sentOf is := by simp [sentOf, hs]
      rw [e1, e1, e2, List.cons_append, List.map_cons,
          join_cons_ne _ _ _ (by simp)]
      simp only [Data.send, amp]
      simp [formItem]

/-! ### A whole run -/

theorem serialize_ok_iff {cfg : Cfg} {sg : Sign S} {e : Env}
    (hsg : ConstSign sg e.name e.useNonce e.useTimestamp) {a : Authorizer S Bytes}
    (ha : HasEnv e a) (hd : a.appendDelimToSign = false) (hp : a.prevKey = [])
    {r : Request} {cs : List Call} (h : IsTrace r cs) (w w' : World) (out : Bytes) :
    r.serialize (Authorizer.serializer cfg stringWriter sg) a w = .ok (out, w') ↔
      ¬ (cfg.clock = .none ∧ cs.any (needsClock e) = true) ∧
      w' = cs.foldl (advance e) w ∧
      (cfg.checksOrder = true →
        ((itemsFrom cfg e w cs).map Item.key).Pairwise (fun x y => bytesLe x y = true)) ∧
      ∃ s sig, runSign sg (signCalls false (itemsFrom cfg e w cs)) a.sign = .ok s ∧
        sg.end s = .ok sig ∧ sig.outcome = .ok ∧
        out = (a.data.sendAll (itemsFrom cfg e w cs)).finish sig.text := by
  rw [h, M.bind_ok]
  have hend : ∀ a1 : Authorizer S Bytes, (Authorizer.serializer cfg stringWriter sg).end a1 =
      (liftM (a1.endM stringWriter sg) : M Bytes) := fun _ => rfl
  simp only [runCalls_ok_iff hsg ha, hend, M.lift_ok, emitAll_eq, applyItems_ok_iff, endM_ok_iff,
    hd, hp]
  have hnil : ∀ l : List Bytes, ([] :: l).Pairwise (fun x y => bytesLe x y = true) ↔
      l.Pairwise (fun x y => bytesLe x y = true) := by
    intro l
    rw [List.pairwise_cons]
    constructor
    · exact fun h => h.2
    · refine fun h => ⟨fun b _ => ?_, h⟩
      cases b <;> rfl
  simp only [hnil]
  by_cases hc : cfg.clock = .none ∧ cs.any (needsClock e) = true
  · rw [if_pos hc]
    simp [hc]
  · rw [if_neg hc]
    constructor
    · rintro ⟨a1, w1, ⟨items, hi, hord, s, hrun, rfl⟩, ⟨sig, h1, h2, h3⟩, rfl⟩
      simp only [Except.ok.injEq, Prod.mk.injEq] at hi
      obtain ⟨rfl, rfl⟩ := hi
      exact ⟨hc, rfl, hord, s, sig, hrun, h1, h2, h3⟩
    · rintro ⟨_, rfl, hord, s, sig, hrun, h1, h2, h3⟩
      exact ⟨_, _, ⟨_, rfl, hord, s, hrun, rfl⟩, ⟨sig, h1, h2, h3⟩, rfl⟩

end OAuth
