import Verif.Spec.Session
import Verif.Spec.Group

/-!
# Bytes on the wire and the body cipher, spelled out

The published formats written with literal tag bytes, and CBC with PKCS7 padding written block by block.  No function of
`Model/Wire.lean`, `Model/Protos.lean` or `Model/Aes.lean` is used.
-/

namespace Axolotl.Spec

/-- Unsigned LEB128. -/
def leb (n : Nat) : Bytes :=
  if n < 128 then [UInt8.ofNat n] else UInt8.ofNat (n % 128 + 128) :: leb (n / 128)

/-- A length-prefixed byte string after its tag byte. -/
def bytesField (tag : UInt8) (b : Bytes) : Bytes := tag :: (leb b.length ++ b)

/-- An unsigned number after its tag byte. -/
def numField (tag : UInt8) (n : Nat) : Bytes := tag :: leb n

/-- Version byte 0x33 and the four fields of a session message, without the MAC. -/
def sessionMessage (ratchetKey : ECPub) (counter previous : Nat) (ciphertext : Bytes) : Bytes :=
  0x33 :: (bytesField 0x0A (5 :: ratchetKey) ++ numField 0x10 counter ++ numField 0x18 previous ++
    bytesField 0x22 ciphertext)

/-- A prekey message around a session message. -/
def preKeyMessage (preKeyId : Option Nat) (baseKey identityKey : ECPub) (inner : Bytes) (registration signedId : Nat) : Bytes :=
  0x33 :: ((match preKeyId with | none => [] | some i => numField 0x08 i) ++ bytesField 0x12 (5 :: baseKey) ++
    bytesField 0x1A (5 :: identityKey) ++ bytesField 0x22 inner ++ numField 0x28 registration ++ numField 0x30 signedId)

/-- A key exchange message: the sequence number and five flag bits share the first field. -/
def keyExchangeMessage (sequence flags : Nat) (baseKey ratchetKey identityKey : ECPub) (signature : Bytes) : Bytes :=
  0x33 :: (numField 0x08 (sequence * 32 + flags) ++ bytesField 0x12 (5 :: baseKey) ++ bytesField 0x1A (5 :: ratchetKey) ++
    bytesField 0x22 (5 :: identityKey) ++ bytesField 0x2A signature)

/-- A group message, without the signature. -/
def groupMessage (keyId iteration : Nat) (ciphertext : Bytes) : Bytes :=
  0x33 :: (numField 0x08 keyId ++ numField 0x10 iteration ++ bytesField 0x1A ciphertext)

/-- A sender key distribution message. -/
def distributionMessage (keyId iteration : Nat) (chainKey : Bytes) (signingKey : ECPub) : Bytes :=
  0x33 :: (numField 0x08 keyId ++ numField 0x10 iteration ++ bytesField 0x1A chainKey ++ bytesField 0x22 (5 :: signingKey))

/-- `k` is the key stored here: a type byte 5, then its 32 bytes. -/
def KeyOf (stored : Option Bytes) (k : ECPub) : Prop := ∃ x, stored = some (5 :: x) ∧ k = x.take 32

/-- The ratchet key a state sends under, as stored. -/
def sendRatchet (s : SessionS) : Option Bytes := s.senderChain.bind fun c => c.senderRatchetKey

/-- PKCS7 padding to 16-byte blocks: always between one and sixteen bytes. -/
def padded (p : Bytes) : Bytes := p ++ List.replicate (16 - p.length % 16) (UInt8.ofNat (16 - p.length % 16))

/-- The `i`th 16-byte block. -/
def block (x : Bytes) (i : Nat) : Bytes := (x.drop (16 * i)).take 16

/-- What block `i` is xored with: the IV, or the previous ciphertext block. -/
def chained (iv ct : Bytes) : Nat → Bytes
  | 0 => iv
  | i + 1 => block ct i

/-- Bytewise xor. -/
def xor16 (a b : Bytes) : Bytes := List.zipWith (fun x y => x ^^^ y) a b

variable [C : Crypto]

/-- `ct` is the AES-CBC encryption of the padded plaintext. -/
structure CbcEncryption (key iv plaintext ct : Bytes) : Prop where
  length : ct.length = (padded plaintext).length
  blocks : ∀ i, 16 * i < ct.length → block ct i = C.aesEnc key (xor16 (chained iv ct i) (block (padded plaintext) i))

/-- `plaintext` is what AES-CBC decryption and removal of the padding give. -/
structure CbcDecryption (key iv ct plaintext : Bytes) : Prop where
  length : (padded plaintext).length = ct.length
  blocks : ∀ i, 16 * i < ct.length → block (padded plaintext) i = xor16 (chained iv ct i) (C.aesDec key (block ct i))

/-- Cipher key, MAC key and IV that a session state offers for message number `n` of the peer's ratchet key `eph`. -/
inductive MessageKey (s : SessionS) (eph : ECPub) (n : Nat) : Bytes → Bytes → Bytes → Prop
  /-- keys stored for a skipped message -/
  | stored {c : ChainS} {e : MessageKeyS} : c ∈ s.receiverChains → KeyOf c.senderRatchetKey eph → e ∈ c.messageKeys →
      e.index.getD 0 = n → MessageKey s eph n (e.cipherKey.getD []) (e.macKey.getD []) (e.iv.getD [])
  /-- keys further along an existing receive chain -/
  | ahead {c : ChainS} {k : Bytes} : c ∈ s.receiverChains → KeyOf c.senderRatchetKey eph →
      (c.chainKey.getD {}).index.getD 0 ≤ n →
      k = chainAt ((c.chainKey.getD {}).key.getD []) (n - (c.chainKey.getD {}).index.getD 0) →
      MessageKey s eph n (cipherKeyOf k) (macKeyOf k) (ivOf k)
  /-- keys of the receive chain that a ratchet step with `eph` opens -/
  | ratchet {c : ChainS} {secret k : Bytes} : s.senderChain = some c →
      C.dh (c.senderRatchetKeyPrivate.getD []) eph = some secret →
      k = chainAt (ratchetChain (s.rootKey.getD []) secret) n →
      MessageKey s eph n (cipherKeyOf k) (macKeyOf k) (ivOf k)

/-- The message seed a sender-key state offers for iteration `i`: one kept for a skipped message, or one further along the
chain. -/
inductive SeedFor (s : SenderKeyStateS) (i : Nat) : Bytes → Prop
  | stored {k : SenderSeedS} : k ∈ s.senderMessageKeys → k.iteration.getD 0 = i → i < iterationOf s →
      SeedFor s i (k.seed.getD [])
  | ahead : iterationOf s ≤ i → SeedFor s i (groupSeed (chainAt (chainKeyOf s) (i - iterationOf s)))

end Axolotl.Spec
