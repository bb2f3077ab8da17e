import Verif.Spec.Trace
import Verif.Spec.Calls
import Verif.Spec.GroupCalls
import Verif.Spec.Version2Session

/-! # Which signatures are checked, and what the block cipher is used for -/

namespace Axolotl.Spec
variable [C : Crypto]

/-- The signatures that calls of the session API check, all with the identity key that comes with them, and only if it is trusted. -/
inductive Checks (w : World) : Call → ECPub → Bytes → Bytes → Prop
  /-- that on the signed prekey of a bundle -/
  | bundle {a : Address} {b : PreKeyBundle} {s1 s2 : Bytes} {spk : ECPub} : w.isTrusted a.1 b.identityKey = true → b.signedPreKey = some spk →
      Checks w (.processBundle a b s1 s2) b.identityKey (5 :: spk) b.signedPreKeySignature
  /-- that on the base key of a key exchange message -/
  | exchange {a : Address} {m : KeyExchangeMessage} {rnd : SessionBuilder.InitiateRand} : w.isTrusted a.1 m.identityKey = true →
      Checks w (.processKeyExchange a m rnd) m.identityKey (5 :: m.baseKey) m.baseKeySignature

/-- The signatures that calls of the group API check: the last 64 bytes of a message over what is before them, with the key of the state that the message
names. -/
inductive GroupChecks (g : GroupStore) : GroupCall → ECPub → Bytes → Bytes → Prop
  | message {n : SenderKeyName} {bytes body sig : Bytes} {m : SenderKeyMessage} {s : SenderKeyStateS} {pub : ECPub} :
      SenderKeyMessage.parse bytes = .ok m → stateFor (g n) m.keyId = some s → KeyOf (s.senderSigningKey.getD {}).pub pub →
      (64 ≤ bytes.length → bytes = body ++ sig ∧ sig.length = 64) → GroupChecks g (.decrypt n bytes) pub body sig

/-- The blocks that are encrypted for a text: those of AES-CBC. -/
def CbcInput (key iv plaintext b : Bytes) : Prop :=
  ∃ ct i, CbcEncryption key iv plaintext ct ∧ 16 * i < ct.length ∧ b = xor16 (chained iv ct i) (block (padded plaintext) i)

/-- The key and IV a state sends its next message with; there are none if it is neither of version 2 nor of version 3. -/
def SendsUnder (s : SessionS) (key iv : Bytes) : Prop :=
  (versionOf s = 3 ∧ key = cipherKeyOf (sendKey s) ∧ iv = ivOf (sendKey s)) ∨
  (versionOf s = 2 ∧ key = cipherKeyOf2 (sendKey s) ∧ iv = ivOf2 (sendKey s))

/-- What calls of the session API encrypt, and under which key: the text, under the key of the next message of the current session. -/
inductive Enciphers (w : World) : Call → Bytes → Bytes → Prop
  | text {a : Address} {pt key iv b : Bytes} :
      SendsUnder (w.loadSession a).sessionState key iv → CbcInput key iv pt b → Enciphers w (.encrypt a pt) key b

/-- The cipher keys a session state offers for message number `n` of the peer's ratchet key `eph`. -/
inductive CipherKey (s : SessionS) (eph : ECPub) (n : Nat) : Bytes → Prop
  /-- a key stored for a skipped message -/
  | stored {c : ChainS} {e : MessageKeyS} : c ∈ s.receiverChains → Curve.decodePoint (c.senderRatchetKey.getD []) = .ok eph → e ∈ c.messageKeys →
      e.index.getD 0 = n → CipherKey s eph n (e.cipherKey.getD [])
  /-- a key further along an existing receive chain -/
  | ahead {c : ChainS} {i : Nat} : c ∈ s.receiverChains → Curve.decodePoint (c.senderRatchetKey.getD []) = .ok eph →
      (c.chainKey.getD {}).index.getD 0 = i → i ≤ n → CipherKey s eph n (cipherKeyOf (chainAt ((c.chainKey.getD {}).key.getD []) (n - i)))
  /-- a key of the receive chain that a ratchet step with `eph` opens -/
  | ratchet {c : ChainS} {secret : Bytes} : s.senderChain = some c → C.dh (c.senderRatchetKeyPrivate.getD []) eph = some secret →
      CipherKey s eph n (cipherKeyOf (chainAt (ratchetChain (s.rootKey.getD []) secret) n))

/-- The same for a state of either version; there are none if it is neither of version 2 nor of version 3. -/
def OpensUnder (s : SessionS) (eph : ECPub) (n : Nat) (key : Bytes) : Prop :=
  (versionOf s = 3 ∧ CipherKey s eph n key) ∨ (versionOf s = 2 ∧ ∃ mac iv, MessageKey2 s eph n key mac iv)

/-- What calls of the session API decrypt, and under which key: blocks of the body of the message that is read, under a key that a state of
its sender offers for its ratchet key and its counter. -/
inductive Opens (w : World) : Call → Bytes → Bytes → Prop
  | message {a : Address} {m : WhisperMessage} {seed : Bytes} {seeds : Nat → Bytes} {s : SessionS} {key : Bytes} {i : Nat} :
      s ∈ states (w.loadSession a) → OpensUnder s m.senderRatchetKey m.counter key →
      16 * i < m.ciphertext.length → Opens w (.decryptMsg a m seed seeds) key (block m.ciphertext i)
  | first {a : Address} {m : PreKeyWhisperMessage} {seed : Bytes} {seeds : Nat → Bytes} {s : SessionS} {key : Bytes} {i : Nat} :
      w.isTrusted a.1 m.identityKey = true → s ∈ states (w.loadSession a) ∨ SetUp w m s →
      OpensUnder s m.message.senderRatchetKey m.message.counter key →
      16 * i < m.message.ciphertext.length → Opens w (.decryptPkmsg a m seed seeds) key (block m.message.ciphertext i)

/-- What calls of the group API encrypt: the text, under the key of the next message of the state that sends. -/
inductive GroupEnciphers (g : GroupStore) : GroupCall → Bytes → Bytes → Prop
  | text {n : SenderKeyName} {pt rand b : Bytes} {s : SenderKeyStateS} {rest : List SenderKeyStateS} :
      (g n).senderKeyStates = s :: rest → CbcInput (groupCipherKey (groupSeed (chainKeyOf s))) (groupIv (groupSeed (chainKeyOf s))) pt b →
      GroupEnciphers g (.encrypt n pt rand) (groupCipherKey (groupSeed (chainKeyOf s))) b

/-- What calls of the group API decrypt: blocks of the body of a message with a right signature, under the key of its number. -/
inductive GroupOpens (g : GroupStore) : GroupCall → Bytes → Bytes → Prop
  | message {n : SenderKeyName} {bytes seed body sig : Bytes} {pub : ECPub} {m : SenderKeyMessage} {s : SenderKeyStateS} {i : Nat} :
      GroupChecks g (.decrypt n bytes) pub body sig → C.verifySig pub body sig = some true →
      SenderKeyMessage.parse bytes = .ok m → stateFor (g n) m.keyId = some s → SeedFor s m.iteration seed →
      16 * i < m.ciphertext.length → GroupOpens g (.decrypt n bytes) (groupCipherKey seed) (block m.ciphertext i)

end Axolotl.Spec
