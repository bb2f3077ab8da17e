import Verif.Real.Instance
import Verif.Model.RatchetingSession

/-! # The values in the project's own tests

The project's tests contain fixed values for six computations.  The model with the primitives `real` gives the
same values.  For AES and the hash functions there are also the values printed in the standards.  These are examples: they say that the definitions were copied correctly, not that anything holds in general. -/

namespace Axolotl.Vectors
open Real

set_option maxRecDepth 100000

/-- `n` bytes written as a number. -/
def hex (n x : Nat) : Bytes := beBytes n x

section
attribute [local instance] real

/-- axolotl/tests/kdf/test_hkdf.py:9-22 -/
example : Kdf.deriveSecrets .v3 (hex 22 0x0b0b0b0b0b0b0b0b0b0b0b0b0b0b0b0b0b0b0b0b0b0b) (hex 10 0xf0f1f2f3f4f5f6f7f8f9) 42
    (hex 13 0x000102030405060708090a0b0c) = (hex 42 0x3cb25f25faacd57a90434f64d0362f2a2d2d0a90cf1a5a4c5db02d56ecc4c5bf34007208d5b887185865) := by decide +kernel

/-- axolotl/tests/kdf/test_hkdf.py:24-54 -/
example : Kdf.deriveSecrets .v3 (hex 80 0x000102030405060708090a0b0c0d0e0f101112131415161718191a1b1c1d1e1f202122232425262728292a2b2c2d2e2f303132333435363738393a3b3c3d3e3f404142434445464748494a4b4c4d4e4f) (hex 80 0xb0b1b2b3b4b5b6b7b8b9babbbcbdbebfc0c1c2c3c4c5c6c7c8c9cacbcccdcecfd0d1d2d3d4d5d6d7d8d9dadbdcdddedfe0e1e2e3e4e5e6e7e8e9eaebecedeeeff0f1f2f3f4f5f6f7f8f9fafbfcfdfeff) 82
    (hex 80 0x606162636465666768696a6b6c6d6e6f707172737475767778797a7b7c7d7e7f808182838485868788898a8b8c8d8e8f909192939495969798999a9b9c9d9e9fa0a1a2a3a4a5a6a7a8a9aaabacadaeaf) = (hex 82 0xb11e398dc80327a1c8e7f78c596a49344f012eda2d4efad8a050cc4c19afa97c59045a99cac7827271cb41c65e590e09da3275600c2f09b8367793a9aca3db71cc30c58179ec3e87c14c01d5c1f3434f1d87) := by decide +kernel

/-- axolotl/tests/kdf/test_hkdf.py:56-71 -/
example : Kdf.deriveSecrets .v2 (hex 22 0x0b0b0b0b0b0b0b0b0b0b0b0b0b0b0b0b0b0b0b0b0b0b) (hex 10 0xf0f1f2f3f4f5f6f7f8f9) 64
    (hex 13 0x000102030405060708090a0b0c) = (hex 64 0x6ec2556d5d7b1d81dee4222ad7483695ddc98f4f5fabc0e0205dc2ef8752d41e04e2e21101c68ff09394b8ad0bdcb9609cd4ee82ac13199b4aa9fda899daebec) := by decide +kernel

/-- axolotl/tests/ratchet/test_chainkey.py:10-35 -/
example : let chainKey : ChainKey := ⟨.v2, (hex 32 0x8ab72d6f4cc5ac0d387eaf463378ddb28edd07385b1cb01250c715982e7ad48f), 0⟩
    chainKey.getMessageKeys.cipherKey = (hex 32 0x02a9aa6c7dbd64f9d3aa92f92a277bf54609dadf0b00828acfc61e3c724b84a7) ∧
      chainKey.getMessageKeys.macKey = (hex 32 0xbfbe5efb603030526742e3ee89c7024e884e440f1ff376bb2317b2d64deb7c83) ∧
      chainKey.getNextChainKey.key = (hex 32 0x28e8f8fee54b801eef7c5cfb2f17f32c7b334485bbb70fac6ec10342a246d15d) ∧
      chainKey.getMessageKeys.counter = 0 ∧ chainKey.getNextChainKey.index = 1 ∧
      chainKey.getNextChainKey.getMessageKeys.counter = 1 := by decide +kernel

/-- axolotl/tests/ratchet/test_rootkey.py:12-49 -/
example : (do
      let alicePublic ← Curve.decodePoint (hex 33 0x05ee4fa6cdc030df49ecd0ba6cfcffb233d365a27fadbeff77e963fcb16222e13a)
      let bobPublic ← Curve.decodePoint (hex 33 0x05abb8eb29cc80b47109a2265abe9798485406e32da268934a9555e84757708a30)
      RootKey.createChain ⟨.v2, (hex 32 0x7ba6debc2bc1bbf91abbc1367404176ca623095b7ec66b45f602d93538942dcc)⟩ bobPublic
        ⟨alicePublic, (hex 32 0x216822ec67eb38049ebae7b939baeaebb151bbb32db80fd389245ac37a948e50)⟩) =
    .ok (⟨.v2, (hex 32 0xb114f5de28011985e6eba25d50e7ec41a9b02f5693c5c788a63a06d212a2f731)⟩,
      ⟨.v2, (hex 32 0x9d7d2469bc9ae53ee9805aa3264d2499a3ace80f4ccae2da13430c5c55b5ca5f), 0⟩) := by decide +kernel

/-- axolotl/tests/ratchet/test_ratchetingsession.py:15-100 -/
example : (do
      let bobIdentity ← Curve.decodePoint (hex 33 0x05f1f43874f6966956c2dd473f8fa15adeb71d1cb991b2341692324cefb1c5e626)
      let bobEphemeral ← Curve.decodePoint (hex 33 0x052cb49776b8770205745a3a6e24f579cdb4ba7a89041005928ebbadc9c05ad458)
      let bobSignedPreKey ← Curve.decodePoint (hex 33 0x05ac248a8f263be6863576eb0362e28c828f0107a3379d34bab1586bf8c770cd67)
      let aliceBase ← Curve.decodePoint (hex 33 0x05472d1fb1a9862c3af6beaca8920277e2b26f4a79213ec7c906aeb35e03cf8950)
      let aliceIdentity ← Curve.decodePoint (hex 33 0x05b4a8455660ada65b401007f615e654041746432e3339c6875149bceefcb42b4a)
      let s ← RatchetingSession.initializeSessionAsBob {}
        { ourIdentityKey := ⟨bobIdentity, (hex 32 0x4875cc69ddf8ea0719ec947d61081135868d5fd801f02c0225e516df2156605e)⟩,
          ourSignedPreKey := ⟨bobSignedPreKey, (hex 32 0x583900131fb727998b7803fe6ac22cc591f342e4e42a8c8d5d78194209b8d253)⟩,
          ourRatchetKey := ⟨bobEphemeral, (hex 32 0xa1cab48f7c893fafa9880a28c3b4999d28d6329562d27a4ea4e22e9ff1bdd65a)⟩,
          ourOneTimePreKey := none, theirIdentityKey := aliceIdentity, theirBaseKey := aliceBase }
      let chain ← s.getSenderChainKey
      .ok chain.key) =
    .ok (hex 32 0x9797caca53c989bbe229a40ca7727010eb2604fc14945d77958a0aeda088b44d) := by decide +kernel

/-- axolotl/tests/test_sigs.py:10-40 -/
example : (do
      let alicePublic ← Curve.decodePoint (hex 33 0x051bb75966f2e93a3691dfff942bb2a466a1c08b8d78ca3f4d6df8b8bfa2e4ee28)
      Curve.calculateAgreement alicePublic (hex 32 0xb03b34c33a1c44f225b662d2bf4859b8135411fa7b0386d45fb75dc5b91b4466)) =
    .ok (hex 32 0x325f239328941ced6e673b86ba41017448e99b649a9c3806c1dd7ca4c477e629) := by decide +kernel
example : (do
      let bobPublic ← Curve.decodePoint (hex 33 0x05653614993d2b15ee9e5fd3d86ce719ef4ec1daae1886a87b3f5fa9565a27a22f)
      Curve.calculateAgreement bobPublic (hex 32 0xc806439dc9d2c476ffed8f2580c0888d58ab406bf7ae3698879021b96bb4bf59)) =
    .ok (hex 32 0x325f239328941ced6e673b86ba41017448e99b649a9c3806c1dd7ca4c477e629) := by decide +kernel

/-- The two public keys of that test belong to its two private keys. -/
example : 5 :: Crypto.genPub (hex 32 0xc806439dc9d2c476ffed8f2580c0888d58ab406bf7ae3698879021b96bb4bf59) =
    (hex 33 0x051bb75966f2e93a3691dfff942bb2a466a1c08b8d78ca3f4d6df8b8bfa2e4ee28) := by decide +kernel
example : 5 :: Crypto.genPub (hex 32 0xb03b34c33a1c44f225b662d2bf4859b8135411fa7b0386d45fb75dc5b91b4466) =
    (hex 33 0x05653614993d2b15ee9e5fd3d86ce719ef4ec1daae1886a87b3f5fa9565a27a22f) := by decide +kernel

/-- axolotl/tests/test_sigs.py:55-79 -/
example : (do
      let alicePublic ← Curve.decodePoint (hex 33 0x05ab7e717d4a163b7d9a1d8071dfe9dcf8cdcd1cea3339b6356be84d887e322c64)
      let aliceEphemeral ← Curve.decodePoint (hex 33 0x05edce9d9c415ca78cb7252e72c2c4a554d3eb29485a0e1d503118d1a82d99fb4a)
      Curve.verifySignature alicePublic (Curve.serializePoint aliceEphemeral)
        (hex 64 0x5de88ca9a89b4a115da79109c67c9c7464a3e4180274f1cb8c63c2984e286dfbede82deb9dcd9fae0bfbb821569b3d9001bd8130cd11d486cef047bd60b86e88)) =
    .ok true := by decide +kernel

/-- FIPS 197, appendix C: AES with keys of 128, 192 and 256 bits -/
example : Crypto.aesEnc (hex 16 0x000102030405060708090a0b0c0d0e0f) (hex 16 0x00112233445566778899aabbccddeeff) =
    hex 16 0x69c4e0d86a7b0430d8cdb78070b4c55a := by decide +kernel
example : Crypto.aesEnc (hex 24 0x000102030405060708090a0b0c0d0e0f1011121314151617) (hex 16 0x00112233445566778899aabbccddeeff) =
    hex 16 0xdda97ca4864cdfe06eaf70a0ec0d7191 := by decide +kernel
example : Crypto.aesEnc (hex 32 0x000102030405060708090a0b0c0d0e0f101112131415161718191a1b1c1d1e1f)
    (hex 16 0x00112233445566778899aabbccddeeff) = hex 16 0x8ea2b7ca516745bfeafc49904b496089 := by decide +kernel

/-- RFC 4231, test case 2 -/
example : Crypto.hmac (hex 4 0x4a656665) (hex 28 0x7768617420646f2079612077616e7420666f72206e6f7468696e673f) =
    hex 32 0x5bdcc146bf60754e6a042426089575c75a003f089d2739839dec58b964ec3843 := by decide +kernel

/-- The digests of "abc" in the examples to FIPS 180-4 -/
example : sha256Bytes (hex 3 0x616263) =
    hex 32 0xba7816bf8f01cfea414140de5dae2223b00361a396177a9cb410ff61f20015ad := by decide +kernel
example : sha512Bytes (hex 3 0x616263) = hex 64
    0xddaf35a193617abacc417349ae20413112e6fa4e89a97ea20a9eeee64b55d39a2192992a274fc1a836ba3c23a3feebbd454d4423643ce80e2a9ac94fa54ca49f :=
  by decide +kernel

end

end Axolotl.Vectors
