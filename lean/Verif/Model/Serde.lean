import Verif.Model.Credentials

/-
oauth-credentials/src/serde_imp.rs: `Deserialize` and `Serialize` for `Credentials<T>`.

A data format is modelled by what it delivers to the visitor: for `visit_map` a finite sequence of
entries, followed by the end of the map or by an error of the format (such as truncated input); for
`visit_seq` a sequence of values.
-/

namespace OAuth.Serde

/-- serde_imp.rs l.11-15 `Field`. -/
inductive Field
  | identifier | secret | other
  deriving DecidableEq, Repr

/-- serde_imp.rs l.18 `IDENTIFIER`. -/
def IDENTIFIER : Bytes := b!"oauth_token"
/-- serde_imp.rs l.19 `SECRET`. -/
def SECRET : Bytes := b!"oauth_token_secret"

/-- What a format hands to the visitor of a key (`deserialize_identifier`). -/
inductive Key (E : Type)
  | str (s : Bytes)
  | bytes (s : Bytes)
  /-- Anything else (such as `visit_u64`) or a syntax error: the default methods fail. -/
  | error (e : E)
  deriving DecidableEq

/-- Errors: those of the format and of value types, and serde's `duplicate_field`, `missing_field`
and `invalid_type`. -/
inductive Error (E : Type)
  | format (e : E)
  | duplicateField (name : Bytes)
  | missingField (name : Bytes)
  /-- `de::Error::invalid_type`: the default of every `visit_*` method that is not overridden. -/
  | invalidType
  deriving DecidableEq

/-- A data format and a string type: `value` is `T::deserialize`, `ignored` is
`IgnoredAny::deserialize`, on the value of an entry. -/
structure Format (V T E : Type) where
  value : V → Except E T
  ignored : V → Except E Unit

/-- The entries of a map and how it ends. -/
structure Input (V E : Type) where
  entries : List (Key E × V)
  «end» : Except E Unit

/-- serde_imp.rs l.242-248 `visit_bytes` (free function). -/
def visitBytes (v : Bytes) : Field :=
  if v = IDENTIFIER then .identifier
  else if v = SECRET then .secret
  else .other

/-- serde_imp.rs l.238-268 `Deserialize for Field`: `visit_str` and `visit_bytes` agree. -/
def Field.deserialize {E : Type} : Key E → Except (Error E) Field
  | .str s => .ok (visitBytes s)
  | .bytes s => .ok (visitBytes s)
  | .error e => .error (.format e)

/-- `try!` of an error of the format. -/
def liftErr {E α : Type} (x : Except E α) : Except (Error E) α :=
  match x with
  | .ok a => .ok a
  | .error e => .error (.format e)

/-- serde_imp.rs l.106-124: the `while let` loop of `visit_map`. -/
def visitMapLoop {V T E : Type} (f : Format V T E) («end» : Except E Unit) :
    List (Key E × V) → Option T → Option T → Except (Error E) (Option T × Option T)
  | [], identifier, secret => do
    liftErr «end»
    .ok (identifier, secret)
  | (k, v) :: rest, identifier, secret => do
    match ← Field.deserialize k with
    | .identifier =>
      if identifier.isSome then .error (.duplicateField IDENTIFIER)
      else
        let x ← liftErr (f.value v)
        visitMapLoop f «end» rest (some x) secret
    | .secret =>
      if secret.isSome then .error (.duplicateField SECRET)
      else
        let x ← liftErr (f.value v)
        visitMapLoop f «end» rest identifier (some x)
    | .other =>
      liftErr (f.ignored v)
      visitMapLoop f «end» rest identifier secret

/-- `Option::ok_or_else`. -/
def okOr {α ε : Type} (o : Option α) (e : ε) : Except ε α :=
  match o with
  | some a => .ok a
  | none => .error e

/-- serde_imp.rs l.91-140 `Deserialize for Credentials<T>` (`visit_map`). -/
def deserialize {V T E : Type} (f : Format V T E) (input : Input V E) :
    Except (Error E) (Credentials T) := do
  let (identifier, secret) ← visitMapLoop f input.end input.entries none none
  let identifier ← okOr identifier (.missingField IDENTIFIER)
  let secret ← okOr secret (.missingField SECRET)
  .ok { identifier := identifier, secret := secret }

/-- serde_imp.rs l.137 `FIELDS`. -/
def FIELDS : List Bytes := [IDENTIFIER, SECRET]

/-- The `visit_*` method a format calls for `deserialize_struct`: formats with field names (JSON, forms)
deliver a map; those without (`bincode`, `postcard`) and JSON arrays a sequence; and any format may find
something else, such as a number, in the place of a struct. -/
inductive Delivered (V E : Type)
  | map (input : Input V E)
  | seq (values : List V) («end» : Except E Unit)
  | other

/-- serde_imp.rs l.91-140 `Deserialize for Credentials<T>`: the visitor overrides `visit_map` only. -/
def deserializeStruct {V T E : Type} (f : Format V T E) :
    Delivered V E → Except (Error E) (Credentials T)
  | .map input => deserialize f input
  | .seq _ _ => .error .invalidType
  | .other => .error .invalidType

/-- External crate `serde`: `FlatStructAccess`, through which a field with `#[serde(flatten)]` sees the
entries of the map around it (buffered by the derived code, hence without errors): those whose key is one
of the fields given to `deserialize_struct`. -/
def flattened {V E : Type} (fields : List Bytes) (entries : List (Bytes × V)) : Input V E :=
  ⟨(entries.filter fun e => fields.contains e.1).map fun e => (.str e.1, e.2), .ok ()⟩

/-- serde_imp.rs l.91-140 behind `#[serde(flatten)]`. -/
def deserializeFlattened {V T E : Type} (f : Format V T E) (entries : List (Bytes × V)) :
    Except (Error E) (Credentials T) :=
  deserializeStruct f (.map (flattened FIELDS entries))

/-- serde_imp.rs l.223-236 `Serialize for Credentials<T>`: the fields handed to the format, which may
refuse a value. -/
def serialize {V T E : Type} (ser : T → Except E V) (c : Credentials T) :
    Except E (List (Bytes × V)) := do
  let i ← ser c.identifier
  let s ← ser c.secret
  .ok [(IDENTIFIER, i), (SECRET, s)]

end OAuth.Serde
