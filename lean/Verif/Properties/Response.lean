import Verif.Properties.Client
import Verif.Spec.FormText
import Verif.Spec.Wire

/-
C65: reading credentials from the bytes of a response. C66: the two directions in formats without field
names.
-/

namespace OAuth

open Spec Serde
open Server (Lib Parameter)

/-! ### C65 -/

theorem credentialsFromBytes_iff (body : Bytes) (c : Credentials Bytes) (w w' : World) :
    Client.credentialsFromBytes body w = .ok (c, w') ↔ w' = w ∧
      deserialize (E := Empty) ⟨.ok, fun _ => .ok ()⟩
        ⟨(Server.formParse body).map fun p => (.str p.1, p.2), .ok ()⟩ = .ok c := by
  unfold Client.credentialsFromBytes
  cases h : deserialize (E := Empty) (⟨.ok, fun _ => .ok ()⟩ : Format Bytes Bytes Empty)
      ⟨(Server.formParse body).map fun p => (.str p.1, p.2), .ok ()⟩ with
  | ok c' =>
    dsimp only
    rw [M.pure_ok]
    simp only [Except.ok.injEq]
    constructor
    · rintro ⟨rfl, rfl⟩; exact ⟨rfl, rfl⟩
    · rintro ⟨rfl, rfl⟩; exact ⟨rfl, rfl⟩
  | error e =>
    constructor
    · intro h'; cases h'
    · rintro ⟨-, h'⟩; cases h'

/-- C65: credentials are read from the body of a response exactly if, by the form decoding of the URL
Standard, it has one `oauth_token` and one `oauth_token_secret`, whatever else it has, wherever and
however encoded; and they are the values of these. Otherwise the client panics. -/
theorem C65_iff (body : Bytes) (c : Credentials Bytes) (w w' : World) :
    let ps := (urlencoded body).map fun p => (Utf8.lossy p.1, Utf8.lossy p.2)
    Client.credentialsFromBytes body w = .ok (c, w') ↔ w' = w ∧
      (ps.filter fun p => p.1 == b!"oauth_token").map (·.2) = [c.identifier] ∧
      (ps.filter fun p => p.1 == b!"oauth_token_secret").map (·.2) = [c.secret] := by
  intro ps
  rw [credentialsFromBytes_iff, Server.formParse_eq, Server.pairsOf, C39_success_iff]
  have hv : ∀ n : Bytes, valuesNamed (E := Empty) n (ps.map fun p => (Key.str p.1, p.2)) =
      (ps.filter fun p => p.1 == n).map (·.2) := by
    intro n
    unfold valuesNamed
    rw [List.filter_map, List.map_map]
    congr 1
    refine List.filter_congr fun p _ => ?_
    simp only [Function.comp, Key.name?, Option.some.injEq]
    by_cases h : p.1 = n <;> simp [h]
  change w' = w ∧ _ ∧ (∃ v, valuesNamed _ (ps.map _) = [v] ∧ _) ∧
    (∃ v, valuesNamed _ (ps.map _) = [v] ∧ _) ↔ _
  rw [hv, hv]
  constructor
  · rintro ⟨h, -, ⟨v, h1, h2⟩, u, h3, h4⟩
    cases h2; cases h4
    exact ⟨h, h1, h3⟩
  · rintro ⟨h, h1, h2⟩
    refine ⟨h, ⟨rfl, ?_, fun _ _ _ _ => rfl⟩, ⟨_, h1, rfl⟩, ⟨_, h2, rfl⟩⟩
    intro e he
    obtain ⟨p, -, rfl⟩ := List.mem_map.mp he
    simp [Key.name?]

/-- C65: what a server writes with `Serialize`, before, after or between parameters of its own, is what
a client reads with `Deserialize`: every identifier and secret arrives unchanged, whatever characters it
has. -/
theorem C65_served (c : Credentials Bytes) (before after : List Parameter)
    (h1 : IsText c.identifier) (h2 : IsText c.secret)
    (hmore : ∀ p ∈ before ++ after, (IsText p.1 ∧ IsText p.2) ∧ p.1 ≠ b!"oauth_token" ∧
      p.1 ≠ b!"oauth_token_secret") (w : World) :
    Client.credentialsFromBytes
      (Server.serializePairs (before ++ Server.credentialPairs c ++ after)) w = .ok (c, w) := by
  have hc : Server.credentialPairs c =
      [(b!"oauth_token", c.identifier), (b!"oauth_token_secret", c.secret)] := rfl
  rw [credentialsFromBytes_iff, Server.formParse_serializePairs]
  have hl : ((before ++ Server.credentialPairs c ++ after).map fun p => (Utf8.lossy p.1, Utf8.lossy p.2)) =
      before ++ Server.credentialPairs c ++ after := by
    refine (List.map_congr_left fun p hp => ?_).trans (List.map_id _)
    have : IsText p.1 ∧ IsText p.2 := by
      rw [List.mem_append, List.mem_append] at hp
      rcases hp with (hp | hp) | hp
      · exact (hmore p (by simp [hp])).1
      · rw [hc] at hp
        simp only [List.mem_cons, List.not_mem_nil, or_false] at hp
        rcases hp with rfl | rfl
        · exact ⟨IsText.ascii (s := b!"oauth_token") (by decide +kernel), h1⟩
        · exact ⟨IsText.ascii (s := b!"oauth_token_secret") (by decide +kernel), h2⟩
      · exact (hmore p (by simp [hp])).1
    rw [Utf8.lossy_text this.1, Utf8.lossy_text this.2]; rfl
  rw [hl]
  exact ⟨rfl, C39_round_trip (f := (⟨.ok, fun _ => .ok ()⟩ : Serde.Format Bytes Bytes Empty)) .ok
    (fun x v h => (by cases h; rfl)) c (Server.credentialPairs c) rfl before after
    (fun e he => ⟨(hmore e he).2.1, (hmore e he).2.2, rfl⟩)⟩

theorem byteSerialize_urlencodedText (s : Bytes) : Server.byteSerialize s = urlencodedText s := by
  have h : ∀ b : UInt8, Server.byteSerialize [b] = urlencodedText [b] := by
    apply forall_byte; decide +kernel
  induction s with
  | nil => rfl
  | cons b s ih =>
    rw [Server.byteSerialize_cons, ih, h]
    simp [urlencodedText]

/-- C65: what the server writes is the text that the URL Standard gives for the pairs. -/
theorem C65_text (ps : List Parameter) : Server.serializePairs ps = urlencodedOf ps := by
  simp only [Server.serializePairs_eq, byteSerialize_urlencodedText, urlencodedOf]

/-- C65: the credentials the server gives. -/
theorem C65_credentials (c : Credentials Bytes) :
    Server.serializePairs (Server.credentialPairs c) =
      b!"oauth_token=" ++ urlencodedText c.identifier ++ b!"&oauth_token_secret=" ++ urlencodedText c.secret := by
  rw [C65_text]
  have hc : Server.credentialPairs c =
      [(b!"oauth_token", c.identifier), (b!"oauth_token_secret", c.secret)] := rfl
  have h1 : urlencodedText b!"oauth_token" = b!"oauth_token" := by decide +kernel
  have h2 : urlencodedText b!"oauth_token_secret" = b!"oauth_token_secret" := by decide +kernel
  rw [hc]
  simp only [urlencodedOf, List.map_cons, List.map_nil, join, h1, h2, List.append_assoc]
  rfl

/-- A token with a space and `~`, a secret with two bytes for `é`. -/
example : Server.serializePairs (Server.credentialPairs ⟨b!"a b~", b!"é*"⟩) =
    b!"oauth_token=a+b%7E&oauth_token_secret=%C3%A9*" := by
  rw [C65_credentials]; decide +kernel

/-- C65: behind `#[serde(flatten)]` (as the documentation shows for the response to a temporary
credentials request) the same credentials are read from the same entries, and the other entries need not
even be readable. -/
theorem C65_flattened {V T E : Type} (f : Format V T E) (entries : List (Bytes × V)) (c : Credentials T) :
    deserializeFlattened f entries = .ok c ↔
      (∃ v, (entries.filter fun e => e.1 == b!"oauth_token").map (·.2) = [v] ∧
        f.value v = .ok c.identifier) ∧
      (∃ v, (entries.filter fun e => e.1 == b!"oauth_token_secret").map (·.2) = [v] ∧
        f.value v = .ok c.secret) := by
  unfold deserializeFlattened deserializeStruct flattened
  dsimp only
  rw [C39_success_iff]
  have hv : ∀ n : Bytes, n ∈ FIELDS → valuesNamed (E := E) n
      ((entries.filter fun e => FIELDS.contains e.1).map fun e => (Key.str e.1, e.2)) =
      (entries.filter fun e => e.1 == n).map (·.2) := by
    intro n hn
    unfold valuesNamed
    rw [List.filter_map, List.map_map, List.filter_filter]
    congr 1
    refine List.filter_congr fun p _ => ?_
    simp only [Function.comp, Key.name?, Option.some.injEq]
    by_cases h : p.1 = n
    · subst h; simp [hn]
    · simp [h]
  dsimp only
  rw [hv _ (by decide +kernel), hv _ (by decide +kernel)]
  refine ⟨fun h => h.2, fun h => ⟨⟨rfl, ?_, ?_⟩, h⟩⟩
  · intro e he
    obtain ⟨p, -, rfl⟩ := List.mem_map.mp he
    simp [Key.name?]
  · intro e he n1 n2
    obtain ⟨p, hp, rfl⟩ := List.mem_map.mp he
    have := (List.mem_filter.mp hp).2
    simp only [FIELDS, List.contains_iff_mem, List.mem_cons, List.not_mem_nil, or_false] at this
    simp only [Key.name?, ne_eq, Option.some.injEq] at n1 n2
    rcases this with h | h
    · exact absurd h n1
    · exact absurd h n2

/-- A response with an escaped name, `+`, a lower-case escape, an empty pair and an unknown parameter:
the credentials are read. With the token twice, or the secret missing, they are not. -/
example (w : World) :
    Client.credentialsFromBytes
      b!"a&&oauth%5ftoken=t+%26%3d&x=1&oauth_token_secret=" w = .ok (⟨b!"t &=", []⟩, w) ∧
    ¬(∃ c w', Client.credentialsFromBytes
      b!"oauth_token=t&oauth_token_secret=s&oauth_token=t" w = .ok (c, w')) ∧
    ¬(∃ c w', Client.credentialsFromBytes b!"oauth_token=t" w = .ok (c, w')) := by
  refine ⟨?_, ?_, ?_⟩
  · exact (C65_iff ..).mpr ⟨rfl, by decide +kernel, by decide +kernel⟩
  · rintro ⟨c, w', h⟩
    have := ((C65_iff ..).mp h).2.1
    have := congrArg List.length this
    revert this; simp only [List.length_singleton]; decide +kernel
  · rintro ⟨c, w', h⟩
    have := ((C65_iff ..).mp h).2.2
    have := congrArg List.length this
    revert this; simp only [List.length_singleton]; decide +kernel

/-- Credentials of a server, with parameters before and after. -/
example (w : World) : Client.credentialsFromBytes (Server.serializePairs
    ([(b!"screen name", b!"x")] ++ Server.credentialPairs ⟨b!"t&", b!"s é"⟩ ++
      [(b!"oauth_callback_confirmed", b!"true")])) w = .ok (⟨b!"t&", b!"s é"⟩, w) :=
  C65_served _ _ _ (by decide +kernel) (by decide +kernel) (by decide +kernel) w

example : deserializeFlattened (V := Bytes) (T := Bytes) (E := Unit) ⟨.ok, fun _ => .error ()⟩
    [(b!"x", b!"1"), (b!"oauth_token_secret", b!"s"), (b!"oauth_token", b!"t")] =
      .ok ⟨b!"t", b!"s"⟩ := by
  rw [C65_flattened]; exact ⟨⟨_, rfl, rfl⟩, ⟨_, rfl, rfl⟩⟩

/-! ### C66 -/

/-- How a format writes a struct and delivers it again: values are restored, and a struct becomes a map
of its fields or, in formats without field names, the sequence of their values. -/
inductive Delivers {V E : Type} (fields : List (Bytes × V)) : Delivered V E → Prop
  | map : Delivers fields (.map ⟨fields.map fun e => (Key.str e.1, e.2), .ok ()⟩)
  | seq : Delivers fields (.seq (fields.map (·.2)) (.ok ()))

/-- C66, as far as it holds: in formats that keep the names of fields, what was serialized is
deserialized. (The full statement is for every `Delivers fields d`.) -/
theorem C66_partial {V T E : Type} (f : Format V T E) (ser : T → Except E V)
    (hser : ∀ x v, ser x = .ok v → f.value v = .ok x) (c : Credentials T) (fields : List (Bytes × V))
    (hs : serialize ser c = .ok fields) (d : Delivered V E) (hd : Delivers fields d)
    (hmap : ∀ vs e, d ≠ .seq vs e) : deserializeStruct f d = .ok c := by
  cases hd with
  | map =>
    have := C39_round_trip f ser hser c fields hs [] [] (by simp)
    simpa [deserializeStruct] using this
  | seq => exact absurd rfl (hmap _ _)

/-- C66 is false of formats without field names: all credentials can be written and none can be read,
because the visitor has no `visit_seq`. -/
theorem C66_violated {V T E : Type} (f : Format V T E) (ser : T → Except E V) (c : Credentials T)
    (fields : List (Bytes × V)) (_ : serialize ser c = .ok fields) :
    ∃ d : Delivered V E, Delivers fields d ∧ deserializeStruct f d = .error .invalidType :=
  ⟨_, .seq, rfl⟩

/-- C66: exactly: of what a format may deliver, the map is what is read. -/
theorem C66_iff {V T E : Type} (f : Format V T E) (ser : T → Except E V)
    (hser : ∀ x v, ser x = .ok v → f.value v = .ok x) (c : Credentials T) (fields : List (Bytes × V))
    (hs : serialize ser c = .ok fields) (d : Delivered V E) (hd : Delivers fields d) :
    deserializeStruct f d = .ok c ↔ ∃ input, d = .map input := by
  constructor
  · intro h
    cases hd with
    | map => exact ⟨_, rfl⟩
    | seq => cases h
  · rintro ⟨input, rfl⟩
    exact C66_partial f ser hser c fields hs _ hd (fun _ _ h => by cases h)

example : ∃ fields : List (Bytes × Bytes), serialize (E := Unit) .ok ⟨b!"t", b!"s"⟩ = .ok fields ∧
    Delivers (E := Unit) fields (.seq [b!"t", b!"s"] (.ok ())) ∧
    deserializeStruct (T := Bytes) (E := Unit) ⟨.ok, fun _ => .ok ()⟩ (.seq [b!"t", b!"s"] (.ok ())) =
      .error .invalidType :=
  ⟨_, rfl, .seq, rfl⟩

end OAuth
