import Verif.Vectors
import Verif.Proofs.Rsa

/-
The test vector of signature_method/rsa_sha1.rs, replayed on the model. This is a test of the model, not a
proof.
-/

namespace OAuth.Vectors

open Spec

/-- signature_method/rsa_sha1.rs l.169-172: the numbers in the DER text. -/
def rsaKey : RsaKey where
  n := 0xb46230b021f628a6babf1503ba95bddab17af12e5245b82bed8a74c5e69d06c6f406bb93b7818cad52fb42d89958cf2a52463571c31aecb9170fddeeb8d527404b07eb9b3caf2203f4f0de12d08173114464575c29fc8a47ee41f8d44b5b9949ab5d2c1f359b2741113949848e861f8b70adb0c9091d81c32fd759782a806473
  k := 128
  e := 65537
  d := 0x58595b65794cdabe46eb3e3cb44f914ca2ef075fdbb6002dabcbcbc3fe5edca9e76dc0c3e9f64ed3b9b80d168f8d1af2ac976ca7ca9ace651d718d0ed682b81507e9a6b9270e33fe4755c785b864438584c239b13ecb5931465a0d6179f1dde8b5cdb7982cf087761c51616ed3d2a7329cd9b0ae7d39fca3b644b8e040d6a5b1

/-- RFC 3447 with fast exponentiation. -/
def fastOps : RsaOps RsaKey :=
  ⟨fun key digest => (emsa key.k digest).map fun em =>
    i2osp key.k (powMod key.n 1024 (os2ip em) key.d)⟩

theorem fastOps_eq (digest : Bytes) : fastOps.sign rsaKey digest = rsaKey.sign digest := by
  unfold fastOps RsaKey.sign
  simp only [powMod_eq _ _ _ _ (by decide +kernel : rsaKey.d < 2 ^ 1024)]

/-- signature_method/rsa_sha1.rs l.177-191: the calls of the test. -/
def rsaCalls (s : RsaSign RsaKey) : Except Panic (RsaSign RsaKey) := do
  let sg := rsaSignRef Sha1.hash fastOps
  let s ← sg.requestMethod s b!"GET"
  let s ← sg.uri s (.ofBytes b!"http%3A%2F%2Fphotos.example.net%2Fphotos")
  let s ← sg.parameter s b!"file" (.ofBytes b!"vacaction.jpg")
  let s ← sg.delimiter s
  let s ← sg.consumerKey s (.ofBytes b!"dpf43f3p2l4k3l03")
  let s ← sg.delimiter s
  let s ← sg.nonce s (.ofBytes b!"13917289812797014437")
  let s ← sg.delimiter s
  let s ← sg.signatureMethod s
  let s ← sg.delimiter s
  let s ← sg.timestamp s 1196666512
  let s ← sg.delimiter s
  let s ← sg.version s
  let s ← sg.delimiter s
  sg.parameter s b!"size" (.ofBytes b!"original")

def rsaExpected : Bytes :=
  b!"jvTp/wX1TYtByB1m+Pbyo0lnCOLIsyGCH7wke8AUs3BpnwZJtAuEJkvQL2/9n4s5wUmUl4aCI4BwpraNx4RtEXMe5qg5T1LVTGliMRpKasKsW//e+RinhejgCuzoH26dyF8iY2ZZ/5D1ilgeijhV/vBka5twt399mXwaYdCwFYE="

/-- signature_method/rsa_sha1.rs l.193-197. -/
example : (rsaCalls ⟨[], rsaKey⟩ >>= (rsaSignRef Sha1.hash fastOps).end).toOption.map (·.text) =
    some (encode rsaExpected) := by decide +kernel

/-- The public key accepts it. -/
example : powMod rsaKey.n 17 ((base64DecodePad base64Alphabet rsaExpected).elim 0 os2ip) rsaKey.e =
    ((rsaCalls ⟨[], rsaKey⟩).toOption.bind fun s => emsa 128 (Sha1.hash s.msg)).elim 0 os2ip := by
  decide +kernel

end OAuth.Vectors
