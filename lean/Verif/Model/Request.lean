import Verif.Model.Serializer

/-
request.rs: the `Request` trait and its implementations.
-/

namespace OAuth

/-- request.rs l.20-26 trait `Request`: a value that can feed itself to any serializer. -/
structure Request where
  serialize : {σ ω : Type} → Serializer σ ω → σ → M ω

namespace Request

/-- request.rs l.66-76 `Request for &R`. -/
def ref (r : Request) : Request := ⟨fun S s => r.serialize S s⟩

/-- request.rs l.78-88 `Request for &mut R`. -/
def refMut (r : Request) : Request := ⟨fun S s => r.serialize S s⟩

/-- request.rs l.91-99 `Request for ()`. -/
def unit : Request := ⟨fun S s => do
  let s ← S.oauthParameters s
  S.end s⟩

/-- request.rs l.101-113 `Request for Option<R>`. -/
def option (o : Option Request) : Request := ⟨fun S s =>
  match o with
  | some this => this.serialize S s
  | none => do
    let s ← S.oauthParameters s
    S.end s⟩

end Request

namespace AssertSorted
variable {σ ω : Type}

/-- request.rs l.146-149: `while next_param < *k { .. }`, one iteration per unit of fuel. -/
def whileLess (cfg : Cfg) (S : Serializer σ ω) (k : Bytes) :
    Nat → OAuthParameter → σ → M (OAuthParameter × σ)
  | 0, _, _ => panicM .fuel
  | fuel + 1, p, s =>
    if p.ltStr k then do
      let s ← p.serialize S s
      let p ← p.next cfg
      whileLess cfg S k fuel p s
    else pure (p, s)

/-- request.rs l.153-156: `while next_param != OAuthParameter::None { .. }`. -/
def whileNotNone (cfg : Cfg) (S : Serializer σ ω) : Nat → OAuthParameter → σ → M σ
  | 0, _, _ => panicM .fuel
  | fuel + 1, p, s =>
    if p ≠ .none then do
      let s ← p.serialize S s
      let p ← p.next cfg
      whileNotNone cfg S fuel p s
    else pure s

/-- request.rs l.144-151: the `for` loop over the pairs. Nine iterations of the inner loop suffice. -/
def forPairs (cfg : Cfg) (S : Serializer σ ω) :
    List (Bytes × Display) → OAuthParameter → σ → M (OAuthParameter × σ)
  | [], p, s => pure (p, s)
  | (k, v) :: rest, p, s => do
    let (p, s) ← whileLess cfg S k 9 p s
    let s ← S.parameter s k v
    forPairs cfg S rest p s

/-- request.rs l.132-160 `Request for AssertSorted<I>`; the iterator (cloned per call) is the list of
pairs it yields. -/
def request (cfg : Cfg) (pairs : List (Bytes × Display)) : Request := ⟨fun S s => do
  let (p, s) ← forPairs cfg S pairs .default s
  let s ← whileNotNone cfg S 9 p s
  S.end s⟩

end AssertSorted
end OAuth
