import Verif.Model.Features

/-
When a build is one that Cargo makes, and when what an item or an example refers to is there.
-/

namespace OAuth.Spec

open OAuth.Build

/-- What Cargo enables for a selection of features. -/
inductive Enabled (selected : Atom → Prop) : Atom → Prop
  | selected {a : Atom} : selected a → Enabled selected a
  | implied {a c : Atom} : Enabled selected a → c ∈ enables a → Enabled selected c

/-- What holds in a build is what Cargo enables for some selection. (Other crates of the same build may
select features too, of this crate or of its dependencies.) -/
def IsBuild (b : Build) : Prop :=
  ∃ selected : Atom → Prop, ∀ a, b a = true ↔ Enabled selected a

/-- oauth1-request/Cargo.toml l.23-52: the crates that are there. -/
def HasCrate (b : Build) : Crate → Prop
  | .base64 | .cfgIf | .fmtCmp | .oauthCredentials | .percentEncoding | .rand => True
  | .requestDerive => b (.feature .requestDerive) = true
  | .either => b (.feature .either) = true
  | .digest => b (.feature .digest) = true
  | .hmac => b (.feature .hmac) = true
  | .sha1 => b (.feature .sha1) = true
  | .rsa06 => b (.feature .rsa06) = true
  | .rsa09 => b (.feature .rsa09) = true
  | .jsSys => b (.feature .jsSys) = true ∧ b .wasm = true
  | .serde => b (.dep .credentialsSerde) = true

/-- An item of this name is compiled. -/
def HasItem (ds : List Decl) (b : Build) (n : Name) : Prop :=
  ∃ d ∈ ds, d.name = n ∧ d.cfg.eval b = true

/-- A need is met. -/
def Met (ds : List Decl) (b : Build) : Need → Prop
  | .krate c => HasCrate b c
  | .threadRng => b (.dep .randStd) = true ∧ b (.dep .randStdRng) = true
  | .sha1Oid => b (.dep .sha1Oid) = true
  | .item n => HasItem ds b n
  | .absent n => ¬ HasItem ds b n
  | .defaultString => b (.dep .credentialsAlloc) = true

/-- Every reference of every compiled item is met. -/
def Resolves (ds : List Decl) (b : Build) : Prop :=
  ∀ d ∈ ds, d.cfg.eval b = true → ∀ u ∈ d.uses, u.1.eval b = true → Met ds b u.2

/-- No two compiled items have the same name. -/
def NamesUnique (ds : List Decl) (b : Build) : Prop :=
  ((ds.filter fun d => d.cfg.eval b).map Decl.name).Nodup

/-- A clock can be read. -/
def HasClock (b : Build) : Prop :=
  (b (.feature .js) = true ∧ b .wasm = true) ∨ (b (.feature .std) = true ∧ b .wasm = false)

/-- An example compiles, and does not run into a missing clock. -/
def Works (ds : List Decl) (b : Build) (e : Example) : Prop :=
  (∀ n ∈ e.uses, Met ds b n) ∧ (e.signsNow = true → HasClock b)

end OAuth.Spec
