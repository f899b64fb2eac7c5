import Verif.Spec.Auth
import Verif.Spec.Parse

/-
Specification vocabulary for a whole run: the order of calls, the nonce and the time taken from the
world, what a run signs and sends, and what is asked of a signature method.
-/

namespace OAuth

open Spec

variable {S : Type}

/-- The calls made by the loop when the remaining protocol parameters are `ps`. -/
def weave : List Proto → List (Bytes × Display) → List Call
  | ps, [] => ps.map .oauth
  | ps, (k, v) :: rest =>
    (ps.takeWhile (fun p => cmpBytes p.name k == .lt)).map .oauth ++
      .parameter k v :: weave (ps.dropWhile (fun p => cmpBytes p.name k == .lt)) rest

/-- Every protocol call exactly once and in order, as all requests of the crate do (C17). -/
def Standard (cs : List Call) : Prop := cs.filterMap Call.proto? = allProto

/-- The next nine random bytes. -/
def World.nonceBytes (w : World) : Bytes := (List.range 9).map (fun i => w.rng (w.rngPos + i))

/-- The nonce generated in a world. -/
def World.nonce (w : World) : Bytes :=
  let rand := w.nonceBytes
  base64UrlNoPad (rand.drop (rand.findIdx (fun b => b != 0)))

/-- The timestamp taken in a world. -/
def World.time (cfg : Cfg) (w : World) : Nat :=
  let t := w.clock w.clockPos
  match cfg.clock with
  | .js => (t / 1000000000).toNat
  | .std => if 0 ≤ t then (t / 1000000000).toNat else 1
  | .none => 0

/-- The call needs the clock. -/
def needsClock (e : Env) (c : Call) : Bool :=
  decide (c = .oauth .timestamp) && e.useTimestamp && e.options.timestamp.isNone

/-- The call needs random bytes. -/
def needsRng (e : Env) (c : Call) : Bool :=
  decide (c = .oauth .nonce) && e.useNonce && e.options.nonce.isNone

/-- The world after a call. -/
def advance (e : Env) (w : World) (c : Call) : World :=
  { w with
    rngPos := if needsRng e c then w.rngPos + 9 else w.rngPos
    clockPos := if needsClock e c then w.clockPos + 1 else w.clockPos }

/-- Each call with the nonce and the time it would use. -/
def annotate (cfg : Cfg) (e : Env) : World → List Call → List (Call × Bytes × Nat)
  | _, [] => []
  | w, c :: cs => (c, w.nonce, w.time cfg) :: annotate cfg e (advance e w c) cs

/-- What a run emits: the base string's parameters. -/
def signedIn (cfg : Cfg) (e : Env) (w : World) (cs : List Call) : List (Bytes × Bytes) :=
  (annotate cfg e w cs).filterMap fun r => r.1.signed? e r.2.1 r.2.2

/-- What a run emits: the parameters sent. -/
def sentIn (cfg : Cfg) (e : Env) (w : World) (cs : List Call) : List (Bytes × Bytes) :=
  (annotate cfg e w cs).filterMap fun r => r.1.sent? e r.2.1 r.2.2

/-- The signing algorithm's name and flags do not depend on its state. -/
structure ConstSign (sg : Sign S) (name : Bytes) (useNonce useTimestamp : Bool) : Prop where
  name : ∀ s, sg.name s = name
  useNonce : ∀ s, sg.useNonce s = useNonce
  useTimestamp : ∀ s, sg.useTimestamp s = useTimestamp

/-- A signing algorithm for which only the concatenated text of the calls matters: `add s t` is the
state after `t`. Calls whose argument formats without error never fail. -/
structure Absorbs (sg : Sign S) (name : Bytes) (add : S → Bytes → S) : Prop where
  call : ∀ (c : SignCall) (s : S), c.outcome = .ok → c.run sg s = .ok (add s (c.render name))
  nil : ∀ s, add s [] = s
  append : ∀ s a b, add (add s a) b = add s (a ++ b)

/-- A signature method which, with the given secrets, emits a function of the base string. -/
structure Signs (sm : SignatureMethod S) (cs : Bytes) (ts : Option Bytes) (name : Bytes)
    (un ut : Bool) (sig : Bytes → Bytes) : Prop where
  const : ConstSign sm.sign name un ut
  safe : ∀ x ∈ name, unreserved x = true
  run : ∃ add s0, Absorbs sm.sign name add ∧ sm.signWith cs ts = .ok s0 ∧
    ∀ m, ∃ d, sm.sign.end (add s0 m) = .ok d ∧ d.outcome = .ok ∧ d.text = sig m

/-- The signature method of a builder, with its secrets, signs. -/
abbrev Builder.Signs (b : Builder S) (name : Bytes) (un ut : Bool) (sig : Bytes → Bytes) : Prop :=
  OAuth.Signs b.signatureMethod b.client.secret (b.token.map (·.secret)) name un ut sig

/-- The header of parameters and a signature text. -/
def headerText (ps : List (Bytes × Bytes)) (sig : Bytes) : Bytes :=
  b!"OAuth " ++ (ps.map headerItem).flatten ++ b!"oauth_signature=\"" ++ sig ++ b!"\""

/-- The form of parameters and a signature text. -/
def formText (ps : List (Bytes × Bytes)) (sig : Bytes) : Bytes :=
  join b!"&" ((ps ++ [(b!"oauth_signature", sig)]).map formItem)

/-- The signature base string of a request with trace `cs`: spelled out from what is configured. -/
def Builder.base (cfg : Cfg) (b : Builder S) (name : Bytes) (method : Bytes) (uri : Display)
    (cs : List Call) (w : World) : Bytes :=
  baseString method uri.text
    (cs.filterMap (Call.signed? (b.env name true true) w.nonce (w.time cfg)))

/-- The parameters sent. -/
def Builder.params (cfg : Cfg) (b : Builder S) (name : Bytes) (w : World) : List (Bytes × Bytes) :=
  (b.env name true true).protocolParams w.nonce (w.time cfg)

end OAuth
