import Verif.Model.Basic

/-
examples/src/server/authorization.rs: parsing of `Authorization` headers, with the parts of the
external crate `nom` (version 6) it uses.
-/

namespace OAuth.Server

/-- `nom::Err<E>` without the contents of errors. `Incomplete` is only returned by streaming parsers,
which the example does not use; it is treated like `Failure` (authorization.rs l.84-87). -/
inductive NomErr
  | error
  | failure
  deriving DecidableEq, Repr

/-- `nom::IResult<&[u8], O>`: the remaining input and the output. -/
abbrev IResult (α : Type) := Except NomErr (Bytes × α)

/-- External crate `nom`: `bytes::complete::take_while1`. -/
def takeWhile1 (p : UInt8 → Bool) (input : Bytes) : IResult Bytes :=
  match input.takeWhile p with
  | [] => .error .error
  | m => .ok (input.dropWhile p, m)

/-- External crate `nom`: `bytes::complete::tag`. -/
def tag (t input : Bytes) : IResult Bytes :=
  if input.take t.length = t then .ok (input.drop t.length, t) else .error .error

/-- External crate `nom`: `bytes::complete::take_while_m_n(1, 1, p)` on bytes. -/
def takeOne (p : UInt8 → Bool) : Bytes → IResult Bytes
  | [] => .error .error
  | b :: rest => if p b then .ok (rest, [b]) else .error .error

/-- External crate `nom`: `character::is_space`. -/
def isSpace (b : UInt8) : Bool := b == 0x20 || b == 0x09

/-- External crate `nom`: `character::is_alphanumeric`. -/
def isAlphanumeric (b : UInt8) : Bool :=
  (0x41 ≤ b && b ≤ 0x5A) || (0x61 ≤ b && b ≤ 0x7A) || (0x30 ≤ b && b ≤ 0x39)

/-- External crate `nom`: `character::complete::space0`. -/
def space0 (input : Bytes) : IResult Bytes := .ok (input.dropWhile isSpace, input.takeWhile isSpace)

/-- External crate `nom`: `branch::alt` of two parsers. -/
def alt {α : Type} (f g : Bytes → IResult α) (input : Bytes) : IResult α :=
  match f input with
  | .error .error => g input
  | r => r

/-- External crate `nom`: `Parser::map`. -/
def mapP {α β : Type} (f : Bytes → IResult α) (g : α → β) (input : Bytes) : IResult β :=
  (f input).map fun r => (r.1, g r.2)

/-- External crate `nom`: `sequence::delimited`. -/
def delimited {α β γ : Type} (f : Bytes → IResult α) (g : Bytes → IResult β) (h : Bytes → IResult γ)
    (input : Bytes) : IResult β :=
  match f input with
  | .error e => .error e
  | .ok (input, _) => match g input with
    | .error e => .error e
    | .ok (input, o) => match h input with
      | .error e => .error e
      | .ok (input, _) => .ok (input, o)

/-- External crate `nom`: the loop of `bytes::complete::escaped_transform(normal, control, transform)`.
`first` says that nothing has been consumed yet. `emptyOk` says whether the version of the crate
accepts an input that starts with neither normal text nor the control character (older versions of 6
do, later ones report an error). -/
def escapedLoop (emptyOk : Bool) (normal transform : Bytes → IResult Bytes) (control : UInt8) :
    Nat → Bool → Bytes → Bytes → IResult Bytes
  | _, _, [], res => .ok ([], res)
  | 0, _, _ :: _, _ => .error .failure
  | fuel + 1, first, b :: rest, res =>
    match normal (b :: rest) with
    | .ok ([], o) => .ok ([], res ++ o)
    | .ok (c :: i2, o) => escapedLoop emptyOk normal transform control fuel false (c :: i2) (res ++ o)
    | .error .failure => .error .failure
    | .error .error =>
      if b = control then
        if rest = [] then .error .error
        else match transform rest with
          | .error e => .error e
          | .ok ([], o) => .ok ([], res ++ o)
          | .ok (c :: i2, o) =>
            escapedLoop emptyOk normal transform control fuel false (c :: i2) (res ++ o)
      else if first && !emptyOk then .error .error
      else .ok (b :: rest, res)

/-- External crate `nom`: `bytes::complete::escaped_transform`. -/
def escapedTransform (emptyOk : Bool) (normal : Bytes → IResult Bytes) (control : UInt8)
    (transform : Bytes → IResult Bytes) (input : Bytes) : IResult Bytes :=
  escapedLoop emptyOk normal transform control input.length true input []

/-- authorization.rs l.164-166 `is_tchar`. -/
def isTchar (b : UInt8) : Bool := isAlphanumeric b || b!"!#$%&'*+-.^_`|~".contains b

/-- authorization.rs l.193-195 `is_obs_text`. -/
def isObsText (b : UInt8) : Bool := 0x80 ≤ b

/-- authorization.rs l.200-202 `is_vchar`. -/
def isVchar (b : UInt8) : Bool := 0x21 ≤ b && b ≤ 0x7E

/-- authorization.rs l.182-188 `is_qdtext`. -/
def isQdtext (b : UInt8) : Bool :=
  isSpace b || b == 0x21 || (0x23 ≤ b && b ≤ 0x5B) || (0x5D ≤ b && b ≤ 0x7E) || isObsText b

/-- authorization.rs l.150-152 `token`. -/
def token (input : Bytes) : IResult Bytes := takeWhile1 isTchar input

/-- authorization.rs l.157-159 `ows`. -/
def ows (input : Bytes) : IResult Bytes := space0 input

/-- authorization.rs l.111-113 `auth_scheme`. -/
def authScheme (input : Bytes) : IResult Bytes := token input

/-- authorization.rs l.172-177 `quoted_string`. -/
def quotedString (emptyOk : Bool) (input : Bytes) : IResult Bytes :=
  delimited (tag [0x22])
    (escapedTransform emptyOk (takeWhile1 isQdtext) 0x5C
      (takeOne fun b => isSpace b || isVchar b || isObsText b))
    (tag [0x22]) input

/-- `Cow<'a, [u8]>`. -/
inductive Cow
  | borrowed (s : Bytes)
  | owned (s : Bytes)
  deriving DecidableEq, Repr

/-- The bytes of a `Cow`. -/
def Cow.bytes : Cow → Bytes
  | .borrowed s => s
  | .owned s => s

/-- authorization.rs l.119-126 `auth_param`. -/
def authParam (emptyOk : Bool) (input : Bytes) : IResult (Bytes × Cow) :=
  (token input).bind fun (input, key) =>
  (ows input).bind fun (input, _) =>
  (tag b!"=" input).bind fun (input, _) =>
  (ows input).bind fun (input, _) =>
  (alt (mapP (quotedString emptyOk) Cow.owned) (mapP token Cow.borrowed) input).bind
    fun (input, value) => .ok (input, (key, value))

/-- authorization.rs l.35-40 `State<E>`. -/
inductive State
  | head
  | mid
  | done
  | err (e : NomErr)
  deriving DecidableEq, Repr

/-- authorization.rs l.28-33 `Punctuated<I, E, F, G>`. -/
structure Punctuated (α : Type) where
  input : Bytes
  parser : Bytes → IResult α
  punct : Bytes → IResult Unit
  state : State

namespace Punctuated
variable {α : Type}

/-- authorization.rs l.48-55 `new`. -/
def new (input : Bytes) (parser : Bytes → IResult α) (punct : Bytes → IResult Unit) : Punctuated α :=
  ⟨input, parser, punct, .head⟩

/-- authorization.rs l.57-62 `finish`. -/
def finish (p : Punctuated α) : IResult Unit :=
  match p.state with
  | .head | .mid | .done => .ok (p.input, ())
  | .err e => .error e

/-- authorization.rs l.74-89 `try_parse!` when parsing fails: the state after `return None`. -/
def failed (p : Punctuated α) : NomErr → Punctuated α
  | .error => { p with state := .done }
  | e => { p with state := .err e }

/-- authorization.rs l.73-106 `next`. -/
def next (p : Punctuated α) : Option α × Punctuated α :=
  match p.state with
  | .head => match p.parser p.input with
    | .error e => (none, p.failed e)
    | .ok (input, o) => (some o, { p with input := input, state := .mid })
  | .mid => match p.punct p.input with
    | .error e => (none, p.failed e)
    | .ok (input, _) => match p.parser input with
      | .error e => (none, p.failed e)
      | .ok (input, o) => (some o, { p with input := input })
  | .done => (none, p)
  | .err _ => (none, p)

/-- `for o in &mut iter`: all outputs and the iterator after the loop. -/
def drain : Nat → Punctuated α → Except Panic (List α × Punctuated α)
  | 0, _ => .error .fuel
  | fuel + 1, p => match p.next with
    | (none, p) => .ok ([], p)
    | (some o, p) => do
      let (os, p) ← drain fuel p
      pure (o :: os, p)

end Punctuated

/-- authorization.rs l.138-143: the `punct` closure of `hash`. -/
def comma (input : Bytes) : IResult Unit :=
  (ows input).bind fun (input, _) =>
  (tag b!"," input).bind fun (input, _) =>
  (ows input).bind fun (input, _) => .ok (input, ())

/-- authorization.rs l.131-145 `hash`. -/
def hash {α : Type} (input : Bytes) (f : Bytes → IResult α) : Punctuated α := .new input f comma

end OAuth.Server
