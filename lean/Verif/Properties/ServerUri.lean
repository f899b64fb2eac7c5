import Verif.Properties.BaseUri
import Verif.Properties.ServerRfc

/-
C96: the URI in the base string of the example server, for any scheme and authority it is set up with.
-/

namespace OAuth

open Spec
open Server (Lib HttpRequest Response OAuthParams Parameter Received)

/-! ### The last colon -/

namespace Server

theorem rfindColon_of_last (a p : Bytes) (hp : ∀ b ∈ p, b ≠ 0x3A) :
    rfindColon (a ++ 0x3A :: p) = some a.length := by
  have h : (a ++ 0x3A :: p).reverse.takeWhile (· != 0x3A) = p.reverse := by
    rw [List.reverse_append, List.reverse_cons, List.append_assoc]
    rw [List.takeWhile_append_of_pos (by intro b hb; simpa using hp b (List.mem_reverse.mp hb))]
    simp
  simp only [rfindColon, h, List.length_reverse, List.length_append, List.length_cons]
  rw [if_neg (by omega)]
  congr 1
  omega

theorem rfindColon_none {s : Bytes} (hs : ∀ b ∈ s, b ≠ 0x3A) : rfindColon s = none := by
  have h : s.reverse.takeWhile (· != 0x3A) = s.reverse := by
    have := List.takeWhile_append_of_pos (l₂ := []) (p := (· != (0x3A : UInt8))) (l₁ := s.reverse)
      (by intro b hb; simpa using hs b (List.mem_reverse.mp hb))
    simpa using this
  simp only [rfindColon, h, List.length_reverse, if_true]

/-- Every text has no colon or a last one. -/
theorem last_colon (s : Bytes) :
    (∀ b ∈ s, b ≠ 0x3A) ∨ ∃ a p, s = a ++ 0x3A :: p ∧ ∀ b ∈ p, b ≠ (0x3A : UInt8) := by
  induction s with
  | nil => exact .inl (by simp)
  | cons c s ih =>
    rcases ih with h | ⟨a, p, rfl, h⟩
    · by_cases hc : c = 0x3A
      · exact .inr ⟨[], s, by rw [hc]; rfl, h⟩
      · refine .inl fun b hb => ?_
        rcases List.mem_cons.mp hb with rfl | hb
        · exact hc
        · exact h b hb
    · exact .inr ⟨c :: a, p, rfl, h⟩

/-- The `unwrap` in `create_base_string` does not fail: where there is a port there is a colon. -/
theorem rfindColon_of_port {a : Bytes} {n : Nat} (h : portU16 a = some n) : ∃ i, rfindColon a = some i := by
  unfold portU16 at h
  cases hc : rfindColon a with
  | none => rw [hc] at h; cases h
  | some i => exact ⟨i, rfl⟩

theorem parseU64_isSome_chars {p : Bytes} (h : (parseU64 p).isSome = true) :
    ∀ b ∈ p, (0x30 ≤ b ∧ b ≤ 0x39) ∨ b = 0x2B := by
  obtain ⟨n, hn⟩ := Option.isSome_iff_exists.mp h
  have hd : ∀ (s : Bytes) (m n : Nat), readDecimalAux m s = some n → ∀ b ∈ s, 0x30 ≤ b ∧ b ≤ 0x39 := by
    intro s
    induction s with
    | nil => intro m n _ b hb; cases hb
    | cons c s ih =>
      intro m n h b hb
      unfold readDecimalAux at h
      split at h
      · rename_i hc
        rcases List.mem_cons.mp hb with rfl | hb
        · exact ⟨by rw [UInt8.le_iff_toNat_le]; exact hc.1, by rw [UInt8.le_iff_toNat_le]; exact hc.2⟩
        · exact ih _ _ h b hb
      · cases h
  have hr : ∀ (s : Bytes) (n : Nat), readDecimal s = some n → ∀ b ∈ s, 0x30 ≤ b ∧ b ≤ 0x39 := by
    intro s n h
    unfold readDecimal at h
    split at h
    · cases h
    · exact hd _ _ _ h
  rcases ((parseU64_iff _ _).mp hn).1 with h | ⟨r, rfl, h⟩
  · exact fun b hb => .inl (hr _ _ h b hb)
  · rename_i hr'
    intro b hb
    rcases List.mem_cons.mp hb with rfl | hb
    · exact .inr rfl
    · exact .inl (hr _ _ hr' b hb)

end Server

/-! ### C96 -/

/-- Without a port nothing is taken for one: not the end of an address in brackets, not a password. -/
theorem baseAuthority_no_port {u : Uri} (hu : u.Valid) (hp : u.port = none) (scheme : Bytes) :
    Server.baseAuthority scheme u.authority = u.authority := by
  have hnone : Server.portU16 u.authority = none := by
    unfold Server.portU16
    rcases Server.last_colon u.authority with h | ⟨a, p, he, h⟩
    · rw [Server.rfindColon_none h]; rfl
    · rw [he, Server.rfindColon_of_last a p h]
      have hdrop : (a ++ 0x3A :: p).drop (a.length + 1) = p := by
        rw [List.drop_append]; simp
      simp only [Option.bind_some, hdrop]
      -- the part behind the last colon has an `@` or a bracket, or there is no colon
      cases hparse : Server.parseU64 p with
      | none => rfl
      | some n =>
        exfalso
        have hchars := Server.parseU64_isSome_chars (p := p) (by rw [hparse]; rfl)
        have hauth : u.authority = (u.userinfo.map (· ++ b!"@")).getD [] ++ u.host := by
          simp [Uri.authority, hp]
        rw [he] at hauth
        have hlast : ∀ (x y : Bytes) (c : UInt8), a ++ 0x3A :: p = x ++ c :: y →
            (∀ b ∈ c :: y, b ≠ 0x3A) → c ∈ p := by
          intro x y c hxy hy
          rcases List.append_eq_append_iff.mp hxy with ⟨z, h1, h2⟩ | ⟨z, h1, h2⟩
          · cases z with
            | nil =>
              simp only [List.nil_append, List.cons.injEq] at h2
              exact absurd h2.1.symm (hy c (List.mem_cons_self ..))
            | cons d z =>
              simp only [List.cons_append, List.cons.injEq] at h2
              rw [h2.2]
              simp
          · have : (0x3A : UInt8) ∈ c :: y := by
              rw [h2]; simp
            exact absurd rfl (hy _ this)
        rcases hu.host with ⟨hne, hh⟩ | ⟨x, hx, -⟩
        · cases hui : u.userinfo with
          | none =>
            rw [hui] at hauth
            simp only [Option.map_none, Option.getD_none, List.nil_append] at hauth
            have : (0x3A : UInt8) ∈ u.host := by rw [← hauth]; simp
            exact (hh _ this).2.2.1 rfl
          | some v =>
            rw [hui] at hauth
            simp only [Option.map_some, Option.getD_some, List.append_assoc, List.cons_append,
              List.nil_append] at hauth
            have := hlast v u.host 0x40 hauth (by
              intro b hb
              rcases List.mem_cons.mp hb with rfl | hb
              · decide
              · exact (hh _ hb).2.2.1)
            exact absurd (hchars _ this) (by decide)
        · rw [hx] at hauth
          have := hlast ((u.userinfo.map (· ++ b!"@")).getD [] ++ (b!"[" ++ x)) [] 0x5D
            (by rw [hauth]; simp) (by intro b hb; simp at hb; subst hb; decide)
          exact absurd (hchars _ this) (by decide)
  simp only [Server.baseAuthority, hnone]

/-- With a port: it is left out exactly if it is the default one of the scheme, which is compared as text. -/
theorem baseAuthority_port {u : Uri} (hu : u.Valid) {p : Bytes} (hp : u.port = some p) :
    Server.baseAuthority u.scheme u.authority =
      if (u.scheme = b!"http" ∨ u.scheme = b!"https") ∧ readDecimal p = some u.defaultPort then
        { u with port := none : Uri }.authority
      else u.authority := by
  have hdigits := hu.port p hp
  have hcolon : ∀ b ∈ p, b ≠ 0x3A := by
    rintro b hb rfl
    exact absurd (hdigits _ hb).2 (by decide)
  let a := (u.userinfo.map (· ++ b!"@")).getD [] ++ u.host
  have hauth : u.authority = a ++ 0x3A :: p := by simp [Uri.authority, hp, a]
  have hauth' : { u with port := none : Uri }.authority = a := by simp [Uri.authority, a]
  have hport : Server.portU16 (a ++ 0x3A :: p) = (readDecimal p).filter (· < 2 ^ 16) := by
    unfold Server.portU16
    rw [Server.rfindColon_of_last a p hcolon]
    have hdrop : (a ++ 0x3A :: p).drop (a.length + 1) = p := by rw [List.drop_append]; simp
    simp only [Option.bind_some, hdrop]
    ext n
    simp only [Option.filter_eq_some_iff, decide_eq_true_eq, Server.parseU64_iff]
    constructor
    · rintro ⟨⟨h | ⟨r, rfl, -⟩, -⟩, h2⟩
      · exact ⟨h, h2⟩
      · exact absurd (hdigits 0x2B (List.mem_cons_self ..)).1 (by decide)
    · rintro ⟨h, h2⟩
      exact ⟨⟨.inl h, Nat.lt_trans h2 (by decide)⟩, h2⟩
  have htake : ((Server.rfindColon (a ++ 0x3A :: p)).map (a ++ 0x3A :: p).take).getD [] = a := by
    rw [Server.rfindColon_of_last a p hcolon]
    simp
  rw [hauth', hauth]
  unfold Server.baseAuthority
  rw [hport, htake]
  have hdef : (u.scheme = b!"http" → u.defaultPort = 80) ∧ (u.scheme = b!"https" → u.defaultPort = 443) := by
    unfold Uri.defaultPort
    constructor <;> intro h <;> rw [h] <;> decide
  cases hr : readDecimal p with
  | none =>
    rw [if_neg (by rintro ⟨-, h⟩; cases h)]
    rfl
  | some n =>
    by_cases hc : (u.scheme, n) = (b!"http", 80) ∨ (u.scheme, n) = (b!"https", 443)
    · have hn : n < 2 ^ 16 := by
        rcases hc with hc | hc <;> rw [(Prod.mk.inj hc).2] <;> decide
      rw [Option.filter_some, if_pos (by simpa using hn)]
      simp only [if_pos hc]
      rw [if_pos]
      rcases hc with hc | hc <;> obtain ⟨h1, h2⟩ := Prod.mk.inj hc
      · exact ⟨.inl h1, by rw [hdef.1 h1, h2]⟩
      · exact ⟨.inr h1, by rw [hdef.2 h1, h2]⟩
    · rw [if_neg]
      · cases hf : (some n).filter (· < 2 ^ 16) with
        | none => rfl
        | some m =>
          have hm : m = n := by
            have := (Option.filter_eq_some_iff.mp hf).1
            exact (Option.some.inj this).symm
          subst hm
          simp only [if_neg hc]
      · rintro ⟨h1 | h1, h2⟩
        · rw [hdef.1 h1] at h2
          exact hc (.inl (by rw [h1, Option.some.inj h2]))
        · rw [hdef.2 h1] at h2
          exact hc (.inr (by rw [h1, Option.some.inj h2]))

/-- What the server takes as it is set up: scheme and host in lower case, no user information, no colon without
a port. -/
structure SetUp (u : Uri) : Prop where
  scheme : lower u.scheme = u.scheme
  userinfo : u.userinfo = none
  host : lower u.host = u.host
  port : u.port ≠ some []

/-- C96, exactly: the server signs the base string URI of RFC 5849 section 3.4.1.2, whatever the path, if and only
if it is set up in lower case, without user information and not with an empty port. Default ports it leaves
out itself. -/
theorem C96_uri_iff {u : Uri} (hu : u.Valid) (hpath : u.path ≠ []) :
    u.scheme ++ b!"://" ++ Server.baseAuthority u.scheme u.authority ++ u.path = u.baseUri ↔ SetUp u := by
  -- the URI that the server writes
  let v : Uri := { u with
    port := if (u.scheme = b!"http" ∨ u.scheme = b!"https") ∧
        (u.port.bind readDecimal) = some u.defaultPort then none else u.port
    query := none, fragment := none }
  have hv : v.Valid := by
    refine { hu with port := ?_, query := fun q hq => (by cases hq) }
    intro p hp
    simp only [v] at hp
    split at hp
    · cases hp
    · exact hu.port p hp
  have htext : u.scheme ++ b!"://" ++ Server.baseAuthority u.scheme u.authority ++ u.path = v.text := by
    have h1 : Server.baseAuthority u.scheme u.authority = v.authority := by
      cases hp : u.port with
      | none =>
        rw [baseAuthority_no_port hu hp]
        simp [Uri.authority, v, hp]
      | some p =>
        rw [baseAuthority_port hu hp]
        simp only [v, hp, Option.bind_some]
        split <;> simp [Uri.authority, hp]
    rw [h1]
    simp [Uri.text, Uri.authority, v]
  have hbase : v.baseUri = u.baseUri := by
    unfold Uri.baseUri
    simp only [v]
    congr 2
    cases hp : u.port with
    | none => simp
    | some p =>
      simp only [Option.bind_some]
      by_cases hc : (u.scheme = b!"http" ∨ u.scheme = b!"https") ∧ readDecimal p = some u.defaultPort
      · rw [if_pos hc, if_pos (.inr hc.2)]
      · rw [if_neg hc]
        rfl
  rw [htext, ← hbase, baseUri_iff hv]
  constructor
  · intro h
    refine ⟨h.scheme, h.userinfo, h.host, ?_⟩
    intro hp
    have := h.port [] (by simp [v, hp, readDecimal])
    exact this.1 rfl
  · intro h
    refine ⟨h.scheme, h.userinfo, h.host, ?_, hpath, rfl, rfl⟩
    intro p hp
    simp only [v] at hp
    split at hp
    · cases hp
    · rename_i hc
      refine ⟨fun h0 => h.port (by rw [hp, h0]), fun hd => hc ⟨?_, by rw [hp]; exact hd⟩⟩
      rw [← h.scheme]
      exact hu.scheme

/-- C96: with the method and the parameters, exactly when the text that the server verifies is that of RFC 5849. -/
theorem C96_base_string_iff {u : Uri} (hu : u.Valid) {req : HttpRequest} (hreq : req.path = u.path)
    (hpath : u.path ≠ []) (header own : List Parameter) :
    Server.createBaseStringAt u.scheme u.authority req (sortPairs (header ++ own)) =
      rfcBase req.method u.baseUri (collectParams header own) ↔
    SetUp u ∧ (∀ p ∈ header, p.1 ≠ b!"realm") ∧ OrderKept (unsigned (header ++ own)) := by
  rw [Server.createBaseStringAt_eq _ _ _ _ (sortPairs_spec _).2,
    rawOrderBase_perm _ _ (show (unsigned (sortPairs (header ++ own))).Perm (unsigned (header ++ own)) from
      (sortPairs_spec _).1.filter _), hreq, ← C96_uri_iff hu hpath, ← rawOrder_rfc_iff req.method u.baseUri]
  constructor
  · intro h
    have h2 : u.scheme ++ b!"://" ++ Server.baseAuthority u.scheme u.authority ++ u.path = u.baseUri := by
      have h := h
      unfold rawOrderBase rfcBase at h
      simp only [List.append_assoc, List.append_cancel_left_eq, List.cons_append, List.nil_append,
        List.cons.injEq, true_and] at h
      have h3 := congrArg (splitFirst 0x26) h
      rw [splitFirst_append (not_mem_encode _ (by decide)),
        splitFirst_append (not_mem_encode _ (by decide))] at h3
      have := encode_injective (congrArg Prod.fst (Option.some.inj h3))
      simpa using this
    rw [h2] at h
    exact ⟨h2, h⟩
  · rintro ⟨h1, h2⟩
    rw [h1]
    exact h2

/-- The server as it is. -/
def exampleServer (path : Bytes) : Uri :=
  { scheme := b!"http", host := b!"127.0.0.1", port := some b!"8080", path }

theorem exampleServer_valid {path : Bytes} (h1 : path.head? = some 0x2F)
    (h2 : ∀ b ∈ path, b ≠ 0x3F ∧ b ≠ 0x23) : (exampleServer path).Valid :=
  ⟨.inl (show lower b!"http" = b!"http" by decide), fun x hx => (by cases hx),
    .inl (show b!"127.0.0.1" ≠ [] ∧ ∀ b ∈ b!"127.0.0.1", Uri.inAuthority b = true ∧ b ≠ 0x40 ∧ b ≠ 0x3A ∧
      b ≠ 0x5B by decide),
    fun p hp => (by cases hp; decide), .inr h1, h2, fun x hx => (by cases hx)⟩

/-- C96, of the server as it is: the text `http://127.0.0.1:8080` before the path, which the theorems about the
server have, is what RFC 5849 asks for. -/
theorem C96_example {path : Bytes} (h1 : path.head? = some 0x2F) (h2 : ∀ b ∈ path, b ≠ 0x3F ∧ b ≠ 0x23) :
    (exampleServer path).scheme = Server.SCHEME ∧ (exampleServer path).authority = Server.AUTHORITY ∧
      (exampleServer path).baseUri = b!"http://127.0.0.1:8080" ++ path ∧
      Server.SCHEME ++ b!"://" ++ Server.baseAuthority Server.SCHEME Server.AUTHORITY ++ path =
        (exampleServer path).baseUri := by
  have hne : path ≠ [] := by rintro rfl; cases h1
  have hiff := C96_uri_iff (exampleServer_valid h1 h2) hne
  have hs : SetUp (exampleServer path) :=
    ⟨show lower b!"http" = b!"http" by decide, rfl, show lower b!"127.0.0.1" = b!"127.0.0.1" by decide,
      show some b!"8080" ≠ some [] by decide⟩
  have h3 := hiff.mpr hs
  have he : Server.SCHEME ++ b!"://" ++ Server.baseAuthority Server.SCHEME Server.AUTHORITY =
      b!"http://127.0.0.1:8080" := by decide +kernel
  refine ⟨rfl, rfl, ?_, h3⟩
  rw [← h3]
  show Server.SCHEME ++ b!"://" ++ Server.baseAuthority Server.SCHEME Server.AUTHORITY ++ path = _
  rw [he]

/-- C96: the server as it is takes the text it verifies for that scheme and authority; so `C96_base_string_iff` is
about it. -/
theorem C96_code (req : HttpRequest) (params : List Parameter) : Server.createBaseString req params =
    Server.createBaseStringAt (exampleServer req.path).scheme (exampleServer req.path).authority req params := rfl

/-- C96, the claim: however the server is set up, with the scheme and authority of an http or https URI. -/
def C96_claim : Prop :=
  ∀ (u : Uri), u.Valid → u.path ≠ [] →
    u.scheme ++ b!"://" ++ Server.baseAuthority u.scheme u.authority ++ u.path = u.baseUri

/-- C96, where it holds. -/
theorem C96_partial {u : Uri} (hu : u.Valid) (hpath : u.path ≠ []) (hs : SetUp u) :
    u.scheme ++ b!"://" ++ Server.baseAuthority u.scheme u.authority ++ u.path = u.baseUri :=
  (C96_uri_iff hu hpath).mpr hs

/-- C96 is false, e.g. of `http://Example.com/`: the server keeps the capital letter. -/
theorem C96_violated : ¬ C96_claim := by
  intro h
  have hv : ({ scheme := b!"http", host := b!"Example.com", path := b!"/" } : Uri).Valid :=
    ⟨by decide, fun x hx => (by cases hx), .inl (by decide), fun p hp => (by cases hp), by decide, by decide,
      fun x hx => (by cases hx)⟩
  exact absurd ((C96_uri_iff hv (by decide)).mp (h _ hv (by decide))).host (by decide)

/-- Servers on `example.com`: with the default port of http written in two ways, with that of https, and on an
address in brackets. -/
example :
    Server.baseAuthority b!"http" b!"example.com:80" = b!"example.com" ∧
    Server.baseAuthority b!"http" b!"example.com:0080" = b!"example.com" ∧
    Server.baseAuthority b!"https" b!"example.com:80" = b!"example.com:80" ∧
    Server.baseAuthority b!"https" b!"example.com:443" = b!"example.com" ∧
    Server.baseAuthority b!"https" b!"[::443]" = b!"[::443]" ∧
    Server.baseAuthority b!"https" b!"[::443]:443" = b!"[::443]" := by decide +kernel

example : let u : Uri := { scheme := b!"https", host := b!"[::443]", port := some b!"443", path := b!"/a" }
    u.Valid ∧ SetUp u ∧ u.baseUri = b!"https://[::443]/a" :=
  ⟨⟨by decide, fun x hx => (by cases hx), .inr ⟨b!"::443", rfl, by decide⟩, fun p hp => (by cases hp; decide),
    by decide, by decide, fun x hx => (by cases hx)⟩, ⟨by decide, rfl, by decide, by decide⟩, by decide⟩

/-- The text verified by a server at `https://[::443]:443`, for a request of two parameters. -/
example : let u : Uri := { scheme := b!"https", host := b!"[::443]", port := some b!"443", path := b!"/a" }
    Server.createBaseStringAt u.scheme u.authority { signedOnce with path := b!"/a" }
        (sortPairs ([(b!"oauth_nonce", b!"n")] ++ [(b!"b", b!"1 2")])) =
      rfcBase signedOnce.method b!"https://[::443]/a"
        (collectParams [(b!"oauth_nonce", b!"n")] [(b!"b", b!"1 2")]) := by
  refine (C96_base_string_iff ⟨by decide, fun x hx => (by cases hx), .inr ⟨b!"::443", rfl, by decide⟩,
    fun p hp => (by cases hp; decide), by decide, by decide, fun x hx => (by cases hx)⟩
    (req := { signedOnce with path := b!"/a" }) rfl (by decide) [(b!"oauth_nonce", b!"n")]
    [(b!"b", b!"1 2")]).mpr ⟨⟨by decide, rfl, by decide, by decide⟩, by decide, ?_⟩
  unfold OrderKept
  decide +kernel

end OAuth
