import Verif.Model.Credentials

/-
C38: accessors and maps of `Credentials` and `Token`.
-/

namespace OAuth

variable {C T U σ : Type}

/-- C38: constructors and accessors keep every string in its place. -/
theorem C38_in_place (ac : C → Bytes) (at' : T → Bytes) (ci cs : C) (ti ts : T)
    (t : Token C T) :
    (Token.fromParts ci cs ti ts = { client := { identifier := ci, secret := cs },
                                     token := { identifier := ti, secret := ts } }) ∧
    (Token.new t.client t.token = t) ∧
    (Credentials.new ci cs = { identifier := ci, secret := cs }) ∧
    (t.client.identifierStr ac = ac t.client.identifier ∧ t.client.secretStr ac = ac t.client.secret) ∧
    (t.clientStr ac = { identifier := ac t.client.identifier, secret := ac t.client.secret }) ∧
    (t.tokenStr at' = { identifier := at' t.token.identifier, secret := at' t.token.secret }) ∧
    (t.asRef ac at' =
      { client := { identifier := ac t.client.identifier, secret := ac t.client.secret },
        token := { identifier := at' t.token.identifier, secret := at' t.token.secret } }) ∧
    (Token.fromRef ac at' t.client t.token = t.asRef ac at') ∧
    ((t.asRef ac at').asRef id id = t.asRef ac at') := by
  exact ⟨rfl, rfl, rfl, ⟨rfl, rfl⟩, rfl, rfl, rfl, rfl, rfl⟩

/-- A closure with captured state `σ`, recording the arguments it is called with. -/
def recording {A B : Type} (f : A → StateM σ B) (a : A) : StateM (List A × σ) B := fun s =>
  let (b, s') := f a s.2
  (b, (s.1 ++ [a], s'))

/-- C38: `Credentials::map` calls the closure on the identifier and then on the secret, once each, and
puts the results in their places. -/
theorem C38_map_credentials (c : Credentials T) (f : T → StateM σ U) (s : σ) :
    let r1 := f c.identifier s
    let r2 := f c.secret r1.2
    (c.map (recording f)) ([], s) =
      ({ identifier := r1.1, secret := r2.1 }, ([c.identifier, c.secret], r2.2)) := rfl

/-- C38: `Token::map` calls the closure on the four strings in order, once each. -/
theorem C38_map_token (t : Token T T) (f : T → StateM σ U) (s : σ) :
    let r1 := f t.client.identifier s
    let r2 := f t.client.secret r1.2
    let r3 := f t.token.identifier r2.2
    let r4 := f t.token.secret r3.2
    (t.map (recording f)) ([], s) =
      ({ client := { identifier := r1.1, secret := r2.1 },
         token := { identifier := r3.1, secret := r4.1 } },
       ([t.client.identifier, t.client.secret, t.token.identifier, t.token.secret], r4.2)) := rfl

/-- C38: `map_client` calls the closure on the client's strings and leaves the token alone;
`map_token` the other way round. -/
theorem C38_map_one_side (t : Token C T) (f : C → StateM σ U) (g : T → StateM σ U) (s : σ) :
    (let r1 := f t.client.identifier s
     let r2 := f t.client.secret r1.2
     (t.mapClient (recording f)) ([], s) =
      ({ client := { identifier := r1.1, secret := r2.1 }, token := t.token },
       ([t.client.identifier, t.client.secret], r2.2))) ∧
    (let r1 := g t.token.identifier s
     let r2 := g t.token.secret r1.2
     (t.mapToken (recording g)) ([], s) =
      ({ client := t.client, token := { identifier := r1.1, secret := r2.1 } },
       ([t.token.identifier, t.token.secret], r2.2))) :=
  ⟨rfl, rfl⟩

/-- C38: maps of functions without state compose, and mapping the identity changes nothing. -/
theorem C38_compose {V : Type} (c : Credentials T) (t : Token T T) (u : Token C T) (f : T → U) (g : U → V)
    (h : C → T) :
    ((c.map (m := Id) f).map (m := Id) g = c.map (m := Id) (g ∘ f)) ∧
    ((t.map (m := Id) f).map (m := Id) g = t.map (m := Id) (g ∘ f)) ∧
    ((u.mapClient (m := Id) h).mapToken (m := Id) f = (u.mapToken (m := Id) f).mapClient (m := Id) h) ∧
    (c.map (m := Id) id = c) ∧ (t.map (m := Id) id = t) :=
  ⟨rfl, rfl, rfl, rfl, rfl⟩

/-- A closure with state: it numbers its calls. -/
example : ((Token.fromParts 'a' 'b' 'c' 'd').map (m := StateM Nat)
      fun x => do let n ← get; set (n + 1); pure (x, n)) 0 =
    (Token.fromParts ('a', 0) ('b', 1) ('c', 2) ('d', 3), 4) := rfl

end OAuth
