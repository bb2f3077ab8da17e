import Verif.Model.Messages

/-! # axolotl/ratchet/chainkey.py, axolotl/ratchet/rootkey.py -/

namespace Axolotl
variable [Crypto]
open ByteUtil

/-- ASCII text as bytes (`"...".encode()`). -/
def ascii (s : String) : Bytes := s.toList.map fun c => UInt8.ofNat c.toNat

/-- axolotl/ratchet/chainkey.py:10-17 -/
structure ChainKey where
  kdf : Kdf
  key : Bytes
  index : Nat
  deriving DecidableEq, Repr

namespace ChainKey

/-- axolotl/ratchet/chainkey.py:11-12 -/
def MESSAGE_KEY_SEED : Bytes := [0x01]
def CHAIN_KEY_SEED : Bytes := [0x02]

/-- axolotl/ratchet/chainkey.py:37-40 -/
def getBaseMaterial (c : ChainKey) (seed : Bytes) : Bytes := Crypto.hmac c.key seed

/-- axolotl/ratchet/chainkey.py:25-27 -/
def getNextChainKey (c : ChainKey) : ChainKey :=
  { kdf := c.kdf, key := c.getBaseMaterial CHAIN_KEY_SEED, index := c.index + 1 }

/-- the info string of axolotl/ratchet/chainkey.py:32, `"WhisperMessageKeys".encode()` -/
def MESSAGE_KEYS_INFO : Bytes := ascii "WhisperMessageKeys"

/-- axolotl/ratchet/chainkey.py:29-35 with axolotl/kdf/derivedmessagesecrets.py:12-19 -/
def getMessageKeys (c : ChainKey) : MessageKeys :=
  let okm := c.kdf.deriveSecrets (c.getBaseMaterial MESSAGE_KEY_SEED) MESSAGE_KEYS_INFO
    DerivedMessageSecrets.SIZE
  let keys := split3 okm 32 32 16
  { cipherKey := keys.1, macKey := keys.2.1, iv := keys.2.2, counter := c.index }

end ChainKey

/-- axolotl/ratchet/rootkey.py:8-11 -/
structure RootKey where
  kdf : Kdf
  key : Bytes
  deriving DecidableEq, Repr

namespace RootKey

/-- the info string of axolotl/ratchet/rootkey.py:19, `"WhisperRatchet".encode()` -/
def RATCHET_INFO : Bytes := ascii "WhisperRatchet"

/-- axolotl/ratchet/rootkey.py:16-25 with axolotl/kdf/derivedrootsecrets.py:9-12 -/
def createChain (r : RootKey) (theirRatchetKey : ECPub) (ourRatchetKey : KeyPair) :
    Res (RootKey × ChainKey) := do
  let sharedSecret ← Curve.calculateAgreement theirRatchetKey ourRatchetKey.priv
  let derived := split2
    (r.kdf.deriveSecrets sharedSecret RATCHET_INFO DerivedRootSecrets.SIZE r.key) 32 32
  .ok ({ kdf := r.kdf, key := derived.1 }, { kdf := r.kdf, key := derived.2, index := 0 })

end RootKey

end Axolotl
