import Verif.Spec.Agreements
import Verif.Spec.Ciphering
import Verif.Spec.Version2Session

/-! # What is hashed, and with which key -/

namespace Axolotl.Spec
variable [C : Crypto]

/-- The two kinds of HMAC in the derivation of `L` bytes: the extraction, and the blocks of the output. -/
inductive HkdfUse (salt ikm info : Bytes) (L : Nat) : Bytes → Bytes → Prop
  | extract : HkdfUse salt ikm info L (if salt = [] then List.replicate 32 0 else salt) ikm
  | expand {prk : Bytes} {i : Nat} : prk = C.hmac (if salt = [] then List.replicate 32 0 else salt) ikm → 32 * i < L →
      HkdfUse salt ikm info L prk (hkdfT prk info i ++ info ++ [UInt8.ofNat (i + 1)])

/-- What is hashed for one chain key of a session: the constants 1 and 2, and what the keys of the message come from. -/
inductive ChainUse (chainKey : Bytes) : Bytes → Bytes → Prop
  | seed : ChainUse chainKey chainKey [1]
  | next : ChainUse chainKey chainKey [2]
  | keys {k d : Bytes} : HkdfUse [] (C.hmac chainKey [1]) messageKeysInfo 80 k d → ChainUse chainKey k d

/-- What is hashed to send: for the chain key that is sent with, and the identity keys with the message, for the MAC. -/
inductive SendUse (s : SessionS) (plaintext : Bytes) : Bytes → Bytes → Prop
  | chain {k d : Bytes} : ChainUse (sendKey s) k d → SendUse s plaintext k d
  | mac {me them ratchet : ECPub} {ct body : Bytes} : KeyOf s.localIdentityPublic me → KeyOf s.remoteIdentityPublic them → KeyOf (sendRatchet s) ratchet →
      CbcEncryption (cipherKeyOf (sendKey s)) (ivOf (sendKey s)) plaintext ct →
      (ct.length < 2 ^ 63 → body = sessionMessage ratchet (sendCounter s) (s.previousCounter.getD 0) ct) →
      SendUse s plaintext (macKeyOf (sendKey s)) ((5 :: me) ++ (5 :: them) ++ body)

/-- What is hashed when a state reads a message: along a chain up to the number in the message, for a ratchet step if the ratchet key is new to the
state, and the identity keys with the message, for the MAC. -/
inductive ReadUse (s : SessionS) (m : WhisperMessage) (random : Bytes) : Bytes → Bytes → Prop
  | chain {c : ChainS} {j : Nat} {k d : Bytes} : c ∈ s.receiverChains → KeyOf c.senderRatchetKey m.senderRatchetKey →
      (c.chainKey.getD {}).index.getD 0 + j ≤ m.counter → ChainUse (chainAt ((c.chainKey.getD {}).key.getD []) j) k d → ReadUse s m random k d
  | opened {c : ChainS} {secret : Bytes} {j : Nat} {k d : Bytes} : ¬ HasChainFor m s → s.senderChain = some c →
      C.dh (c.senderRatchetKeyPrivate.getD []) m.senderRatchetKey = some secret → j ≤ m.counter →
      ChainUse (chainAt (ratchetChain (s.rootKey.getD []) secret) j) k d → ReadUse s m random k d
  | ratchet {c : ChainS} {secret k d : Bytes} : ¬ HasChainFor m s → s.senderChain = some c →
      C.dh (c.senderRatchetKeyPrivate.getD []) m.senderRatchetKey = some secret →
      HkdfUse (s.rootKey.getD []) secret ratchetInfo 64 k d → ReadUse s m random k d
  | answer {c : ChainS} {secret ours k d : Bytes} : ¬ HasChainFor m s → s.senderChain = some c →
      C.dh (c.senderRatchetKeyPrivate.getD []) m.senderRatchetKey = some secret → C.dh (C.genPriv random) m.senderRatchetKey = some ours →
      HkdfUse (ratchetRoot (s.rootKey.getD []) secret) ours ratchetInfo 64 k d → ReadUse s m random k d
  | mac {key body tag : Bytes} {me them : ECPub} : MacKey s m.senderRatchetKey m.counter key → KeyOf s.remoteIdentityPublic them →
      KeyOf s.localIdentityPublic me → (8 ≤ m.serialized.length → m.serialized = body ++ tag ∧ tag.length = 8) →
      ReadUse s m random key ((5 :: them) ++ (5 :: me) ++ body)

/-- The same derivation in version 2, where the blocks are numbered from 0. -/
inductive HkdfUse2 (salt ikm info : Bytes) (L : Nat) : Bytes → Bytes → Prop
  | extract : HkdfUse2 salt ikm info L (if salt = [] then List.replicate 32 0 else salt) ikm
  | expand {prk : Bytes} {i : Nat} : prk = C.hmac (if salt = [] then List.replicate 32 0 else salt) ikm → 32 * i < L →
      HkdfUse2 salt ikm info L prk ((if i = 0 then [] else hkdf2T prk info (i - 1)) ++ info ++ [UInt8.ofNat i])

/-- What is hashed for one chain key of a version-2 session. -/
inductive ChainUse2 (chainKey : Bytes) : Bytes → Bytes → Prop
  | seed : ChainUse2 chainKey chainKey [1]
  | next : ChainUse2 chainKey chainKey [2]
  | keys {k d : Bytes} : HkdfUse2 [] (C.hmac chainKey [1]) messageKeysInfo 80 k d → ChainUse2 chainKey k d

/-- What is hashed to send in a version-2 session: the MAC is over the message alone. -/
inductive SendUse2 (s : SessionS) (plaintext : Bytes) : Bytes → Bytes → Prop
  | chain {k d : Bytes} : ChainUse2 (sendKey s) k d → SendUse2 s plaintext k d
  | mac {ratchet : ECPub} {ct body : Bytes} : KeyOf (sendRatchet s) ratchet →
      CbcEncryption (cipherKeyOf2 (sendKey s)) (ivOf2 (sendKey s)) plaintext ct →
      (ct.length < 2 ^ 63 → body = sessionMessage2 ratchet (sendCounter s) (s.previousCounter.getD 0) ct) →
      SendUse2 s plaintext (macKeyOf2 (sendKey s)) body

/-- What is hashed when a version-2 state reads a message. -/
inductive ReadUse2 (s : SessionS) (m : WhisperMessage) (random : Bytes) : Bytes → Bytes → Prop
  | chain {c : ChainS} {j : Nat} {k d : Bytes} : c ∈ s.receiverChains → KeyOf c.senderRatchetKey m.senderRatchetKey →
      (c.chainKey.getD {}).index.getD 0 + j ≤ m.counter → ChainUse2 (chainAt ((c.chainKey.getD {}).key.getD []) j) k d → ReadUse2 s m random k d
  | opened {c : ChainS} {secret : Bytes} {j : Nat} {k d : Bytes} : ¬ HasChainFor m s → s.senderChain = some c →
      C.dh (c.senderRatchetKeyPrivate.getD []) m.senderRatchetKey = some secret → j ≤ m.counter →
      ChainUse2 (chainAt (ratchetChain2 (s.rootKey.getD []) secret) j) k d → ReadUse2 s m random k d
  | ratchet {c : ChainS} {secret k d : Bytes} : ¬ HasChainFor m s → s.senderChain = some c →
      C.dh (c.senderRatchetKeyPrivate.getD []) m.senderRatchetKey = some secret →
      HkdfUse2 (s.rootKey.getD []) secret ratchetInfo 64 k d → ReadUse2 s m random k d
  | answer {c : ChainS} {secret ours k d : Bytes} : ¬ HasChainFor m s → s.senderChain = some c →
      C.dh (c.senderRatchetKeyPrivate.getD []) m.senderRatchetKey = some secret → C.dh (C.genPriv random) m.senderRatchetKey = some ours →
      HkdfUse2 (ratchetRoot2 (s.rootKey.getD []) secret) ours ratchetInfo 64 k d → ReadUse2 s m random k d
  | mac {cipherKey key iv body tag : Bytes} : MessageKey2 s m.senderRatchetKey m.counter cipherKey key iv →
      (8 ≤ m.serialized.length → m.serialized = body ++ tag ∧ tag.length = 8) → ReadUse2 s m random key body

/-- What a state hashes to send; nothing if it is neither of version 2 nor of version 3. -/
def SendsWith (s : SessionS) (pt k d : Bytes) : Prop := (versionOf s = 3 ∧ SendUse s pt k d) ∨ (versionOf s = 2 ∧ SendUse2 s pt k d)

/-- What a state hashes to read; nothing if it is neither of version 2 nor of version 3. -/
def ReadsWith (s : SessionS) (m : WhisperMessage) (random k d : Bytes) : Prop :=
  (versionOf s = 3 ∧ ReadUse s m random k d) ∨ (versionOf s = 2 ∧ ReadUse2 s m random k d)

/-- What is hashed by the side that begins a session: the agreements with the keys of the peer, and the agreement of the first ratchet step. -/
inductive BeginUse (identity base ratchet : ECPriv) (theirIdentity signed theirRatchet : ECPub) (oneTime : Option ECPub) : Bytes → Bytes → Prop
  | mk {d1 d2 d3 d4 secret k d : Bytes} : C.dh identity signed = some d1 → C.dh base theirIdentity = some d2 → C.dh base signed = some d3 →
      oneTime.elim (d4 = []) (fun p => C.dh base p = some d4) → secret = List.replicate 32 0xFF ++ d1 ++ d2 ++ d3 ++ d4 →
      HkdfUse [] secret textInfo 64 k d ∨
        (∃ x, C.dh ratchet theirRatchet = some x ∧ HkdfUse ((hkdf [] secret textInfo 64).take 32) x ratchetInfo 64 k d) →
      BeginUse identity base ratchet theirIdentity signed theirRatchet oneTime k d

/-- What is hashed by the side that answers. -/
inductive AnswerUse (identity signed : ECPriv) (oneTime : Option ECPriv) (theirIdentity theirBase : ECPub) : Bytes → Bytes → Prop
  | mk {d1 d2 d3 d4 k d : Bytes} : C.dh signed theirIdentity = some d1 → C.dh identity theirBase = some d2 → C.dh signed theirBase = some d3 →
      oneTime.elim (d4 = []) (fun p => C.dh p theirBase = some d4) →
      HkdfUse [] (List.replicate 32 0xFF ++ d1 ++ d2 ++ d3 ++ d4) textInfo 64 k d → AnswerUse identity signed oneTime theirIdentity theirBase k d

/-- What the calls of the session API hash. -/
inductive Hashes (w : World) : Call → Bytes → Bytes → Prop
  | send {a : Address} {pt k d : Bytes} :
      SendsWith (w.loadSession a).sessionState pt k d → Hashes w (.encrypt a pt) k d
  | read {a : Address} {m : WhisperMessage} {seed : Bytes} {seeds : Nat → Bytes} {s : SessionS} {random k d : Bytes} :
      s ∈ states (w.loadSession a) → ReadsWith s m random k d → random ∈ randomness w (.decryptMsg a m seed seeds) →
      Hashes w (.decryptMsg a m seed seeds) k d
  | readFirst {a : Address} {m : PreKeyWhisperMessage} {seed : Bytes} {seeds : Nat → Bytes} {s : SessionS} {random k d : Bytes} :
      w.isTrusted a.1 m.identityKey = true → s ∈ states (w.loadSession a) ∨ (NewSession w a m ∧ SetUp w m s) →
      ReadsWith s m.message random k d → random ∈ randomness w (.decryptPkmsg a m seed seeds) →
      Hashes w (.decryptPkmsg a m seed seeds) k d
  | answer {a : Address} {m : PreKeyWhisperMessage} {seed : Bytes} {seeds : Nat → Bytes} {p : SignedPreKeyRecord} {o : Option PreKeyRecord} {k d : Bytes} :
      NewSession w a m → w.signedPreKeys m.signedPreKeyId = some p → o = m.preKeyId.bind w.preKeys → (o.isSome ↔ m.preKeyId.isSome) →
      AnswerUse w.identityKeyPair.priv (p.privateKey.getD []) (o.map fun x => x.privateKey.getD []) m.identityKey m.baseKey k d →
      Hashes w (.decryptPkmsg a m seed seeds) k d
  | bundle {a : Address} {b : PreKeyBundle} {s1 s2 k d : Bytes} {spk : ECPub} : GoodBundle w a b spk →
      BeginUse w.identityKeyPair.priv (C.genPriv s1) (C.genPriv s2) b.identityKey spk spk b.preKey k d → Hashes w (.processBundle a b s1 s2) k d
  | exchangeSmaller {a : Address} {m : KeyExchangeMessage} {rnd : SessionBuilder.InitiateRand} {identity base : KeyPair} {k d : Bytes} :
      ExchangeWith w a m rnd identity base → SmallerKey base.pub m.baseKey →
      BeginUse identity.priv base.priv (C.genPriv rnd.sendSeed) m.identityKey m.baseKey m.ratchetKey none k d →
      Hashes w (.processKeyExchange a m rnd) k d
  | exchangeLarger {a : Address} {m : KeyExchangeMessage} {rnd : SessionBuilder.InitiateRand} {identity base : KeyPair} {k d : Bytes} :
      ExchangeWith w a m rnd identity base → ¬ SmallerKey base.pub m.baseKey →
      AnswerUse identity.priv base.priv none m.identityKey m.baseKey k d → Hashes w (.processKeyExchange a m rnd) k d

/-- What is hashed for one chain key of a group: the constants 1 and 2, and what the keys of the message come from. -/
inductive GroupChainUse (chainKey : Bytes) : Bytes → Bytes → Prop
  | seed : GroupChainUse chainKey chainKey [1]
  | next : GroupChainUse chainKey chainKey [2]
  | keys {k d : Bytes} : HkdfUse [] (groupSeed chainKey) groupInfo 48 k d → GroupChainUse chainKey k d

/-- What the calls of the group API hash. -/
inductive GroupHashes (g : GroupStore) : GroupCall → Bytes → Bytes → Prop
  | send {n : SenderKeyName} {pt rand k d : Bytes} {s : SenderKeyStateS} {rest : List SenderKeyStateS} :
      (g n).senderKeyStates = s :: rest → GroupChainUse (chainKeyOf s) k d → GroupHashes g (.encrypt n pt rand) k d
  /-- along the chain, up to the number in the message; only if its signature is right -/
  | ahead {n : SenderKeyName} {bytes body sig k d : Bytes} {pub : ECPub} {m : SenderKeyMessage} {s : SenderKeyStateS} {j : Nat} :
      GroupChecks g (.decrypt n bytes) pub body sig → C.verifySig pub body sig = some true → SenderKeyMessage.parse bytes = .ok m →
      stateFor (g n) m.keyId = some s → iterationOf s + j ≤ m.iteration → GroupChainUse (chainAt (chainKeyOf s) j) k d →
      GroupHashes g (.decrypt n bytes) k d
  /-- the seed kept for a skipped message -/
  | stored {n : SenderKeyName} {bytes body sig k d : Bytes} {pub : ECPub} {m : SenderKeyMessage} {s : SenderKeyStateS} {e : SenderSeedS} :
      GroupChecks g (.decrypt n bytes) pub body sig → C.verifySig pub body sig = some true → SenderKeyMessage.parse bytes = .ok m →
      stateFor (g n) m.keyId = some s → e ∈ s.senderMessageKeys → e.iteration.getD 0 = m.iteration → m.iteration < iterationOf s →
      HkdfUse [] (e.seed.getD []) groupInfo 48 k d → GroupHashes g (.decrypt n bytes) k d

end Axolotl.Spec
