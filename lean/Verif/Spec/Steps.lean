import Verif.Spec.Hashing

/-! # The steps of sending, reading and setting up, one by one -/

namespace Axolotl.Spec
variable [C : Crypto]

/-- HKDF: the extraction, then the blocks of the output. -/
def hkdfSteps (salt ikm info : Bytes) (L : Nat) : List Op :=
  let key := if salt = [] then List.replicate 32 0 else salt
  .hmac key ikm :: (List.range ((L + 31) / 32)).map fun i =>
    .hmac (C.hmac key ikm) (hkdfT (C.hmac key ikm) info i ++ info ++ [UInt8.ofNat (i + 1)])

/-- From a chain key to the keys of a message. -/
def keySteps (chainKey : Bytes) : List Op := .hmac chainKey [1] :: hkdfSteps [] (C.hmac chainKey [1]) messageKeysInfo 80

/-- AES-CBC encryption. -/
def cbcSteps (key iv plaintext ct : Bytes) : List Op :=
  (List.range (ct.length / 16)).map fun i => .aesEnc key (xor16 (chained iv ct i) (block (padded plaintext) i))

/-- AES-CBC decryption. -/
def openSteps (key ct : Bytes) : List Op := (List.range (ct.length / 16)).map fun i => .aesDec key (block ct i)

/-- Along a chain: the keys of each of the `n` messages that are passed over, then the next chain key, then the keys of the message itself. -/
def chainSteps (chainKey : Bytes) (n : Nat) : List Op :=
  ((List.range n).flatMap fun j => keySteps (chainAt chainKey j) ++ [.hmac (chainAt chainKey j) [2]]) ++
    [.hmac (chainAt chainKey n) [2]] ++ keySteps (chainAt chainKey n)

/-- The two halves of a ratchet step: the chain of the peer, and our own new one with a new key pair. -/
def ratchetSteps (root : Bytes) (priv : ECPriv) (eph : ECPub) (random secret ours : Bytes) : List Op :=
  [.dh priv eph] ++ hkdfSteps root secret ratchetInfo 64 ++ [.genPriv random, .genPub (C.genPriv random), .dh (C.genPriv random) eph] ++
    hkdfSteps (ratchetRoot root secret) ours ratchetInfo 64

/-- The MAC of a message, which is its last eight bytes, with the identity keys of the two sides. -/
def MacStep (m : WhisperMessage) (sender receiver : Option Bytes) (macKey : Bytes) (o : Op) : Prop :=
  ∃ a b body, KeyOf sender a ∧ KeyOf receiver b ∧ o = .hmac macKey ((5 :: a) ++ (5 :: b) ++ body) ∧
    m.serialized = body ++ (C.hmac macKey ((5 :: a) ++ (5 :: b) ++ body)).take 8

/-- The steps in which a version-3 state reads a message. -/
inductive ReadSteps (s : SessionS) (m : WhisperMessage) (random : Bytes) : List Op → Prop
  /-- a message that was passed over before: its keys are there -/
  | late {c : ChainS} {e : MessageKeyS} {o : Op} : c ∈ s.receiverChains → KeyOf c.senderRatchetKey m.senderRatchetKey → e ∈ c.messageKeys →
      e.index.getD 0 = m.counter → m.counter < (c.chainKey.getD {}).index.getD 0 →
      MacStep m s.remoteIdentityPublic s.localIdentityPublic (e.macKey.getD []) o →
      ReadSteps s m random (o :: openSteps (e.cipherKey.getD []) m.ciphertext)
  /-- a message further along a chain -/
  | ahead {c : ChainS} {k : Bytes} {n : Nat} {o : Op} : c ∈ s.receiverChains → KeyOf c.senderRatchetKey m.senderRatchetKey →
      k = (c.chainKey.getD {}).key.getD [] → m.counter = (c.chainKey.getD {}).index.getD 0 + n → n ≤ 2000 →
      MacStep m s.remoteIdentityPublic s.localIdentityPublic (macKeyOf (chainAt k n)) o →
      ReadSteps s m random (chainSteps k n ++ o :: openSteps (cipherKeyOf (chainAt k n)) m.ciphertext)
  /-- a message with a new ratchet key -/
  | new {c : ChainS} {k secret ours : Bytes} {o : Op} : ¬ HasChainFor m s → s.senderChain = some c →
      C.dh (c.senderRatchetKeyPrivate.getD []) m.senderRatchetKey = some secret → C.dh (C.genPriv random) m.senderRatchetKey = some ours →
      k = ratchetChain (s.rootKey.getD []) secret → m.counter ≤ 2000 →
      MacStep m s.remoteIdentityPublic s.localIdentityPublic (macKeyOf (chainAt k m.counter)) o →
      ReadSteps s m random (ratchetSteps (s.rootKey.getD []) (c.senderRatchetKeyPrivate.getD []) m.senderRatchetKey random secret ours ++
        chainSteps k m.counter ++ o :: openSteps (cipherKeyOf (chainAt k m.counter)) m.ciphertext)

/-- The steps of the side that begins a session: a ratchet key, three or four agreements, the first keys, and the first ratchet step. -/
inductive BeginSteps (identity base : ECPriv) (random : Bytes) (theirIdentity signed : ECPub) (oneTime : Option ECPub) (ratchet : ECPub) :
    List Op → Prop
  | mk {d1 d2 d3 d4 secret x : Bytes} : C.dh identity signed = some d1 → C.dh base theirIdentity = some d2 → C.dh base signed = some d3 →
      oneTime.elim (d4 = []) (fun p => C.dh base p = some d4) → secret = List.replicate 32 0xFF ++ d1 ++ d2 ++ d3 ++ d4 →
      C.dh (C.genPriv random) ratchet = some x →
      BeginSteps identity base random theirIdentity signed oneTime ratchet
        ([.genPriv random, .genPub (C.genPriv random)] ++ [.dh identity signed, .dh base theirIdentity, .dh base signed] ++
          (oneTime.map fun p => Op.dh base p).toList ++ hkdfSteps [] secret textInfo 64 ++
          [.dh (C.genPriv random) ratchet] ++ hkdfSteps ((hkdf [] secret textInfo 64).take 32) x ratchetInfo 64)

/-- The steps of the side that answers: the agreements, and the first keys. -/
inductive AnswerSteps (identity signed : ECPriv) (oneTime : Option ECPriv) (theirIdentity theirBase : ECPub) : List Op → Prop
  | mk {d1 d2 d3 d4 : Bytes} : C.dh signed theirIdentity = some d1 → C.dh identity theirBase = some d2 → C.dh signed theirBase = some d3 →
      oneTime.elim (d4 = []) (fun p => C.dh p theirBase = some d4) →
      AnswerSteps identity signed oneTime theirIdentity theirBase
        ([.dh signed theirIdentity, .dh identity theirBase, .dh signed theirBase] ++ (oneTime.map fun p => Op.dh p theirBase).toList ++
          hkdfSteps [] (List.replicate 32 0xFF ++ d1 ++ d2 ++ d3 ++ d4) textInfo 64)

/-- The steps of setting up a session from a key exchange: the side with the smaller base key begins, the other answers. -/
inductive ExchangeSteps (identity base : KeyPair) (random : Bytes) (m : KeyExchangeMessage) : List Op → Prop
  | smaller {t : List Op} : SmallerKey base.pub m.baseKey →
      BeginSteps identity.priv base.priv random m.identityKey m.baseKey none m.ratchetKey t → ExchangeSteps identity base random m t
  | larger {t : List Op} : ¬ SmallerKey base.pub m.baseKey → AnswerSteps identity.priv base.priv none m.identityKey m.baseKey t →
      ExchangeSteps identity base random m t

/-- From a chain key of a group to the keys of a message. -/
def groupKeySteps (chainKey : Bytes) : List Op := .hmac chainKey [1] :: hkdfSteps [] (groupSeed chainKey) groupInfo 48

/-- Along the chain of a group, as `chainSteps`. -/
def groupChainSteps (chainKey : Bytes) (n : Nat) : List Op :=
  ((List.range n).flatMap fun j => groupKeySteps (chainAt chainKey j) ++ [.hmac (chainAt chainKey j) [2]]) ++
    [.hmac (chainAt chainKey n) [2]] ++ groupKeySteps (chainAt chainKey n)

/-- The steps to the seed of a message of a group. -/
inductive GroupSeedSteps (s : SenderKeyStateS) (i : Nat) : Bytes → List Op → Prop
  /-- a message that was passed over before: its seed is there -/
  | late {e : SenderSeedS} : e ∈ s.senderMessageKeys → e.iteration.getD 0 = i → i < iterationOf s →
      GroupSeedSteps s i (e.seed.getD []) (hkdfSteps [] (e.seed.getD []) groupInfo 48)
  /-- a message further along the chain -/
  | ahead {n : Nat} : i = iterationOf s + n →
      GroupSeedSteps s i (groupSeed (chainAt (chainKeyOf s) n)) (groupChainSteps (chainKeyOf s) n)

/-- The derivation of version 2, whose blocks count from 0. -/
def hkdfSteps2 (salt ikm info : Bytes) (L : Nat) : List Op :=
  let key := if salt = [] then List.replicate 32 0 else salt
  .hmac key ikm :: (List.range ((L + 31) / 32)).map fun i =>
    .hmac (C.hmac key ikm) ((if i = 0 then [] else hkdf2T (C.hmac key ikm) info (i - 1)) ++ info ++ [UInt8.ofNat i])

/-- From a chain key to the keys of a message, in version 2. -/
def keySteps2 (chainKey : Bytes) : List Op := .hmac chainKey [1] :: hkdfSteps2 [] (C.hmac chainKey [1]) messageKeysInfo 80

/-- The MAC of a message of version 2, without the identity keys. -/
def MacStep2 (m : WhisperMessage) (macKey : Bytes) (o : Op) : Prop :=
  ∃ body, o = .hmac macKey body ∧ m.serialized = body ++ (C.hmac macKey body).take 8

/-- Along a chain, in version 2, as `chainSteps`. -/
def chainSteps2 (chainKey : Bytes) (n : Nat) : List Op :=
  ((List.range n).flatMap fun j => keySteps2 (chainAt chainKey j) ++ [.hmac (chainAt chainKey j) [2]]) ++
    [.hmac (chainAt chainKey n) [2]] ++ keySteps2 (chainAt chainKey n)

/-- The two halves of a ratchet step, in version 2, as `ratchetSteps`. -/
def ratchetSteps2 (root : Bytes) (priv : ECPriv) (eph : ECPub) (random secret ours : Bytes) : List Op :=
  [.dh priv eph] ++ hkdfSteps2 root secret ratchetInfo 64 ++ [.genPriv random, .genPub (C.genPriv random), .dh (C.genPriv random) eph] ++
    hkdfSteps2 (ratchetRoot2 root secret) ours ratchetInfo 64

/-- The steps in which a version-2 state reads a message. -/
inductive ReadSteps2 (s : SessionS) (m : WhisperMessage) (random : Bytes) : List Op → Prop
  /-- a message that was passed over before: its keys are there -/
  | late {c : ChainS} {e : MessageKeyS} {o : Op} : c ∈ s.receiverChains → KeyOf c.senderRatchetKey m.senderRatchetKey → e ∈ c.messageKeys →
      e.index.getD 0 = m.counter → m.counter < (c.chainKey.getD {}).index.getD 0 →
      MacStep2 m (e.macKey.getD []) o →
      ReadSteps2 s m random (o :: openSteps (e.cipherKey.getD []) m.ciphertext)
  /-- a message further along a chain -/
  | ahead {c : ChainS} {k : Bytes} {n : Nat} {o : Op} : c ∈ s.receiverChains → KeyOf c.senderRatchetKey m.senderRatchetKey →
      k = (c.chainKey.getD {}).key.getD [] → m.counter = (c.chainKey.getD {}).index.getD 0 + n → n ≤ 2000 →
      MacStep2 m (macKeyOf2 (chainAt k n)) o →
      ReadSteps2 s m random (chainSteps2 k n ++ o :: openSteps (cipherKeyOf2 (chainAt k n)) m.ciphertext)
  /-- a message with a new ratchet key -/
  | new {c : ChainS} {k secret ours : Bytes} {o : Op} : ¬ HasChainFor m s → s.senderChain = some c →
      C.dh (c.senderRatchetKeyPrivate.getD []) m.senderRatchetKey = some secret → C.dh (C.genPriv random) m.senderRatchetKey = some ours →
      k = ratchetChain2 (s.rootKey.getD []) secret → m.counter ≤ 2000 →
      MacStep2 m (macKeyOf2 (chainAt k m.counter)) o →
      ReadSteps2 s m random (ratchetSteps2 (s.rootKey.getD []) (c.senderRatchetKeyPrivate.getD []) m.senderRatchetKey random secret ours ++
        chainSteps2 k m.counter ++ o :: openSteps (cipherKeyOf2 (chainAt k m.counter)) m.ciphertext)

end Axolotl.Spec
