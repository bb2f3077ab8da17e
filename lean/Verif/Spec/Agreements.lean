import Verif.Spec.Draws
import Verif.Spec.Calls

/-! # Which agreements are made, between which keys -/

namespace Axolotl.Spec
variable [C : Crypto]

/-- The message that a call reads: from whom, and what.  A message that begins a session is read only if the identity key in it is
trusted. -/
inductive IsGiven (w : World) : Call → Address → WhisperMessage → Prop
  | message {a : Address} {m : WhisperMessage} {s : Bytes} {ss : Nat → Bytes} : IsGiven w (.decryptMsg a m s ss) a m
  | first {a : Address} {m : PreKeyWhisperMessage} {s : Bytes} {ss : Nat → Bytes} : w.isTrusted a.1 m.identityKey = true →
      IsGiven w (.decryptPkmsg a m s ss) a m.message

/-- Our identity key and our base key, for a key exchange message with a trusted identity key: a request with a right signature or a reply
to the key exchange that is pending. -/
inductive ExchangeWith (w : World) (a : Address) (m : KeyExchangeMessage) (rnd : SessionBuilder.InitiateRand) : KeyPair → KeyPair → Prop
  | request {identity base ratchet : KeyPair} {flags : Nat} : w.isTrusted a.1 m.identityKey = true → m.isInitiate = true →
      exchangeSignature m = some true → AnswerKeys w a rnd identity base ratchet flags → ExchangeWith w a m rnd identity base
  | reply {p : PendingKeyExchangeS} {identity base ratchet : KeyPair} : w.isTrusted a.1 m.identityKey = true → m.isInitiate = false →
      pendingOf (w.sessions a) = some p → p.sequence.getD 0 = m.sequence → PendingKeys p identity base ratchet →
      ExchangeWith w a m rnd identity base

/-- A bundle that a session may be begun with: the identity key is trusted, the prekey is signed. -/
structure GoodBundle (w : World) (a : Address) (b : PreKeyBundle) (spk : ECPub) : Prop where
  trusted : w.isTrusted a.1 b.identityKey = true
  prekey : b.signedPreKey = some spk
  signed : C.verifySig b.identityKey (5 :: spk) b.signedPreKeySignature = some true

/-- The first message of a session that we do not know: the identity key is trusted, the base key is new. -/
structure NewSession (w : World) (a : Address) (m : PreKeyWhisperMessage) : Prop where
  trusted : w.isTrusted a.1 m.identityKey = true
  unknown : ¬ knowsBaseKey (w.loadSession a) m.version m.baseKey

/-- The agreements of a call of the session API: our private key and the other's public key. -/
inductive MakesAgreement (w : World) : Call → ECPriv → ECPub → Prop
  /-- the ratchet key of a state with the ratchet key of a message, that is new to the state -/
  | ratchet {c : Call} {a : Address} {m : WhisperMessage} {st : SessionS} {sc : ChainS} : IsGiven w c a m →
      st ∈ states (w.loadSession a) → ¬ HasChainFor m st → st.senderChain = some sc →
      MakesAgreement w c (sc.senderRatchetKeyPrivate.getD []) m.senderRatchetKey
  /-- a new ratchet key with the ratchet key of a message, that is new to a state -/
  | new {c : Call} {a : Address} {m : WhisperMessage} {st : SessionS} {random : Bytes} : IsGiven w c a m → st ∈ states (w.loadSession a) →
      ¬ HasChainFor m st → random ∈ randomness w c → MakesAgreement w c (C.genPriv random) m.senderRatchetKey
  /-- a new ratchet key with the ratchet key of a first message -/
  | firstNew {a : Address} {m : PreKeyWhisperMessage} {s : Bytes} {ss : Nat → Bytes} {random : Bytes} : NewSession w a m →
      random ∈ randomness w (.decryptPkmsg a m s ss) → MakesAgreement w (.decryptPkmsg a m s ss) (C.genPriv random) m.message.senderRatchetKey
  /-- our identity key with the base key of a first message -/
  | firstIdentity {a : Address} {m : PreKeyWhisperMessage} {s : Bytes} {ss : Nat → Bytes} : NewSession w a m →
      MakesAgreement w (.decryptPkmsg a m s ss) w.identityKeyPair.priv m.baseKey
  /-- our signed prekey with the keys of a first message -/
  | firstSigned {a : Address} {m : PreKeyWhisperMessage} {s : Bytes} {ss : Nat → Bytes} {p : SignedPreKeyRecord} {k : ECPub} :
      NewSession w a m → w.signedPreKeys m.signedPreKeyId = some p → k = m.identityKey ∨ k = m.baseKey ∨ k = m.message.senderRatchetKey →
      MakesAgreement w (.decryptPkmsg a m s ss) (p.privateKey.getD []) k
  /-- our one-time prekey with the base key of a first message -/
  | firstOneTime {a : Address} {m : PreKeyWhisperMessage} {s : Bytes} {ss : Nat → Bytes} {i : Nat} {p : PreKeyRecord} : NewSession w a m →
      m.preKeyId = some i → w.preKeys i = some p → MakesAgreement w (.decryptPkmsg a m s ss) (p.privateKey.getD []) m.baseKey
  /-- our identity key with the signed prekey of a bundle -/
  | bundleIdentity {a : Address} {b : PreKeyBundle} {s1 s2 : Bytes} {spk : ECPub} : GoodBundle w a b spk →
      MakesAgreement w (.processBundle a b s1 s2) w.identityKeyPair.priv spk
  /-- our base key with the keys of a bundle -/
  | bundleBase {a : Address} {b : PreKeyBundle} {s1 s2 : Bytes} {spk k : ECPub} : GoodBundle w a b spk →
      k = b.identityKey ∨ k = spk ∨ b.preKey = some k → MakesAgreement w (.processBundle a b s1 s2) (C.genPriv s1) k
  /-- our ratchet key with the signed prekey of a bundle -/
  | bundleRatchet {a : Address} {b : PreKeyBundle} {s1 s2 : Bytes} {spk : ECPub} : GoodBundle w a b spk →
      MakesAgreement w (.processBundle a b s1 s2) (C.genPriv s2) spk
  /-- our identity key with the base key of a key exchange -/
  | exchangeIdentity {a : Address} {m : KeyExchangeMessage} {rnd : SessionBuilder.InitiateRand} {identity base : KeyPair} :
      ExchangeWith w a m rnd identity base → MakesAgreement w (.processKeyExchange a m rnd) identity.priv m.baseKey
  /-- our base key with the keys of a key exchange -/
  | exchangeBase {a : Address} {m : KeyExchangeMessage} {rnd : SessionBuilder.InitiateRand} {identity base : KeyPair} {k : ECPub} :
      ExchangeWith w a m rnd identity base → k = m.identityKey ∨ k = m.baseKey → MakesAgreement w (.processKeyExchange a m rnd) base.priv k
  /-- a new ratchet key with the ratchet key of a key exchange -/
  | exchangeRatchet {a : Address} {m : KeyExchangeMessage} {rnd : SessionBuilder.InitiateRand} {identity base : KeyPair} :
      ExchangeWith w a m rnd identity base → MakesAgreement w (.processKeyExchange a m rnd) (C.genPriv rnd.sendSeed) m.ratchetKey

/-- Our private keys: the identity key, the prekeys and signed prekeys in the stores, and keys made from these random bytes. -/
inductive OurKey (w : World) (seeds : List Bytes) : ECPriv → Prop
  | identity : OurKey w seeds w.identityKeyPair.priv
  | signed {i : Nat} {p : SignedPreKeyRecord} : w.signedPreKeys i = some p → OurKey w seeds (p.privateKey.getD [])
  | oneTime {i : Nat} {p : PreKeyRecord} : w.preKeys i = some p → OurKey w seeds (p.privateKey.getD [])
  | made {seed : Bytes} : seed ∈ seeds → OurKey w seeds (C.genPriv seed)

end Axolotl.Spec
