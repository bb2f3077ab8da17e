import Verif.Model.Basic

/-!
# External primitives

The code calls three libraries that are not in the repository: `hmac`/`hashlib` (HMAC-SHA256),
`axolotl_curve25519` (X25519 and XEdDSA signatures) and `cryptography` (the AES block cipher).
They are parameters of the model.  The model never assumes anything about them; theorems that
need a law (e.g. Diffie-Hellman commutativity) take `Crypto.Lawful` as an explicit hypothesis.
-/

namespace Axolotl

class Crypto where
  /-- `hmac.new(key, digestmod=hashlib.sha256)`, `update(msg)`, `digest()`
  (used at axolotl/kdf/hkdf.py:31-33,42-49, axolotl/ratchet/chainkey.py:37-40,
  axolotl/protocol/whispermessage.py:91-97, axolotl/groups/ratchet/senderchainkey.py:33-35).
  Several `update`s are one `update` with the concatenation. -/
  hmac : Bytes → Bytes → Bytes
  /-- `axolotl_curve25519.generatePrivateKey(rand)` (axolotl/ecc/curve.py:16-18). -/
  genPriv : Bytes → Bytes
  /-- `axolotl_curve25519.generatePublicKey(priv)` (axolotl/ecc/curve.py:20-22). -/
  genPub : Bytes → Bytes
  /-- `axolotl_curve25519.calculateAgreement(priv, pub)` (axolotl/ecc/curve.py:62);
  `none` models the `ValueError` the extension raises on malformed arguments. -/
  dh : Bytes → Bytes → Option Bytes
  /-- `axolotl_curve25519.verifySignature(pub, msg, sig) == 0` (axolotl/ecc/curve.py:75-76);
  `none` models `ValueError` on malformed arguments. -/
  verifySig : Bytes → Bytes → Bytes → Option Bool
  /-- `axolotl_curve25519.calculateSignature(rand, priv, msg)` (axolotl/ecc/curve.py:88);
  `none` models `ValueError` on malformed arguments. -/
  calcSig : Bytes → Bytes → Bytes → Option Bytes
  /-- AES encryption of one 16-byte block (inside `cryptography`, axolotl/sessioncipher.py:207). -/
  aesEnc : Bytes → Bytes → Bytes
  /-- AES decryption of one 16-byte block. -/
  aesDec : Bytes → Bytes → Bytes

/-- A private key that the extension made: 32 bytes that are the result of key generation. -/
def Crypto.Generated (C : Crypto) (k : Bytes) : Prop := k.length = 32 ∧ ∃ seed : Bytes, k = C.genPriv seed

/-- The mathematical facts about the real primitives that some theorems use as a hypothesis. -/
structure Crypto.Lawful (C : Crypto) : Prop where
  /-- SHA-256 output size. -/
  hmac_len : ∀ k m, (C.hmac k m).length = 32
  genPriv_len : ∀ r, r.length = 32 → (C.genPriv r).length = 32
  genPub_len : ∀ k, k.length = 32 → (C.genPub k).length = 32
  /-- X25519 agreement on honestly generated keys succeeds and both sides get the same secret. -/
  dh_comm : ∀ a b, a.length = 32 → b.length = 32 →
    ∃ s, C.dh a (C.genPub b) = some s ∧ C.dh b (C.genPub a) = some s
  /-- The extension refuses keys of another size (`ValueError`). -/
  dh_size : ∀ a b s, C.dh a b = some s → a.length = 32 ∧ b.length = 32
  /-- It computes a secret for any two keys of the right size. -/
  dh_total : ∀ a b, a.length = 32 → b.length = 32 → ∃ s, C.dh a b = some s
  /-- Signatures made with a generated key are 64 bytes and verify.  (With other private keys they need not: a
  multiple of the order of the curve's group, such as zero, has no point as its public key.) -/
  sig_ok : ∀ r k m, r.length = 64 → C.Generated k →
    ∃ s, C.calcSig r k m = some s ∧ s.length = 64 ∧ C.verifySig (C.genPub k) m s = some true
  /-- The extension refuses private keys of another size (`ValueError`); every signature has 64 bytes. -/
  sig_size : ∀ r k m s, C.calcSig r k m = some s → k.length = 32 ∧ s.length = 64
  /-- The extension refuses signatures of another size (`ValueError`). -/
  verify_len : ∀ k m s b, C.verifySig k m s = some b → s.length = 64
  aes_len : ∀ k b, b.length = 16 → (C.aesEnc k b).length = 16
  aes_dec_len : ∀ k b, b.length = 16 → (C.aesDec k b).length = 16
  aes_dec_enc : ∀ k b, b.length = 16 → C.aesDec k (C.aesEnc k b) = b

end Axolotl
