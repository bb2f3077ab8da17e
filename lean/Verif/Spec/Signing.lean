import Verif.Spec.Trace
import Verif.Spec.Calls

/-! # What is signed, and with which key -/

namespace Axolotl.Spec
variable [C : Crypto]

/-- The signatures that calls of the session API make: the random bytes, the private key and what is signed. -/
inductive Signs (w : World) : Call → Bytes → ECPriv → Bytes → Prop
  /-- our new base key, to ask for a key exchange -/
  | ask {a : Address} {n : Nat} {s1 s2 s3 : Bytes} :
      Signs w (.initKeyExchange a n s1 s2 s3) s3 w.identityKeyPair.priv (5 :: C.genPub (C.genPriv s1))
  /-- our base key, to answer a request with a right signature -/
  | answer {a : Address} {m : KeyExchangeMessage} {rnd : SessionBuilder.InitiateRand} {identity base ratchet : KeyPair} {flags : Nat} :
      m.isInitiate = true → exchangeSignature m = some true → AnswerKeys w a rnd identity base ratchet flags →
      Signs w (.processKeyExchange a m rnd) rnd.sigRand identity.priv (5 :: base.pub)

/-- The signatures that calls of the group API make: the message with the encrypted text, with the signing key of the state that sends. -/
inductive GroupSigns (g : GroupStore) : GroupCall → Bytes → ECPriv → Bytes → Prop
  | message {n : SenderKeyName} {pt rand ct : Bytes} {s : SenderKeyStateS} {rest : List SenderKeyStateS} :
      (g n).senderKeyStates = s :: rest →
      CbcEncryption (groupCipherKey (groupSeed (chainKeyOf s))) (groupIv (groupSeed (chainKeyOf s))) pt ct →
      GroupSigns g (.encrypt n pt rand) rand ((s.senderSigningKey.getD {}).priv.getD [])
        (groupMessage (s.senderKeyId.getD 0) (iterationOf s) ct)

omit C in
/-- The random bytes from which a call makes a base key for a key exchange. -/
def baseSeeds : Call → List Bytes
  | .initKeyExchange _ _ s1 _ _ => [s1]
  | .processKeyExchange _ _ r => [r.baseSeed]
  | _ => []

/-- The private key with which messages for this name are signed after these calls: the first call that makes a state for the name decides.
A state made from a distribution message has no private key, which reads as no bytes. -/
def groupSigner (n : SenderKeyName) : List GroupCall → Option ECPriv
  | [] => none
  | .create n' r :: cs => if n' = n ∧ r.keyId < 2 ^ 32 then some (C.genPriv r.signSeed) else groupSigner n cs
  | .process n' m :: cs => if n' = n ∧ m.id < 2 ^ 32 ∧ m.iteration < 2 ^ 32 then some [] else groupSigner n cs
  | .encrypt .. :: cs => groupSigner n cs
  | .decrypt .. :: cs => groupSigner n cs

end Axolotl.Spec
