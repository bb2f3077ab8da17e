import Verif.Spec.History
import Verif.Spec.Group

/-!
# The calls with the primitives as operations

The functions of the model again, from top to bottom, written over an arbitrary monad in which the primitives of
`Verif.Model.Crypto` are operations.  No `Crypto` is in scope here, so each use of a primitive is an operation of the monad.  Run with
operations that count, they tell how often a call uses each primitive (`Verif/Spec/Work.lean`); `Verif/Proofs/Work.lean` proves that what
they compute is what the functions of the model compute.
-/

namespace Axolotl

/-- A monad in which computations can fail with the errors of the model, and failures can be looked at. -/
class Fallible (m : Type → Type) extends Monad m where
  fail : {α : Type} → Err → m α
  attempt : {α : Type} → m α → m (Res α)

/-- The primitives as operations; see `Crypto`. -/
structure Prims (m : Type → Type) where
  hmac : Bytes → Bytes → m Bytes
  genPriv : Bytes → m Bytes
  genPub : Bytes → m Bytes
  dh : Bytes → Bytes → m (Option Bytes)
  verifySig : Bytes → Bytes → Bytes → m (Option Bool)
  calcSig : Bytes → Bytes → Bytes → m (Option Bytes)
  aesEnc : Bytes → Bytes → m Bytes
  aesDec : Bytes → Bytes → m Bytes

namespace Work
open Fallible ByteUtil
variable {m : Type → Type} [Fallible m]

/-- A computation without primitives. -/
def lift {α : Type} : Res α → m α
  | .ok a => pure a
  | .error e => fail e

/-- What an extension raises as `ValueError` on malformed arguments. -/
def orValueError {α : Type} : Option α → m α
  | some a => pure a
  | none => fail .valueError

variable (X : Prims m)

/-! ## axolotl/kdf/hkdf.py, axolotl/ecc/curve.py -/

/-- axolotl/kdf/hkdf.py:41-53 -/
def expandLoop (prk info : Bytes) : Nat → Nat → Bytes → Nat → m Bytes
  | 0, _, _, _ => pure []
  | n + 1, i, mixin, remaining => do
    let stepResult ← X.hmac prk (mixin ++ info ++ Kdf.chrEncode (i % 256))
    let stepSize := min remaining stepResult.length
    let rest ← expandLoop prk info n (i + 1) stepResult (remaining - stepSize)
    pure (stepResult.take stepSize ++ rest)

/-- axolotl/kdf/hkdf.py:25-55 -/
def deriveSecrets (k : Kdf) (ikm info : Bytes) (outputLength : Nat) (salt : Bytes := []) : m Bytes := do
  let salt := if salt = [] then List.replicate Kdf.HASH_OUTPUT_SIZE 0 else salt
  let prk ← X.hmac salt ikm
  expandLoop X prk info ((outputLength + 31) / Kdf.HASH_OUTPUT_SIZE) k.startOffset [] outputLength

/-- axolotl/ecc/curve.py:15-30 -/
def generateKeyPair (seed : Bytes) : m KeyPair := do
  let privateKey ← X.genPriv seed
  let publicKey ← X.genPub privateKey
  pure { pub := publicKey, priv := privateKey }

/-- axolotl/ecc/curve.py:52-64 -/
def calculateAgreement (publicKey : ECPub) (privateKey : ECPriv) : m Bytes := do
  orValueError (← X.dh privateKey publicKey)

/-- axolotl/ecc/curve.py:66-78 -/
def verifySignature (signingKey : ECPub) (message signature : Bytes) : m Bool := do
  orValueError (← X.verifySig signingKey message signature)

/-- axolotl/ecc/curve.py:80-91 -/
def calculateSignature (rand : Bytes) (signingKey : ECPriv) (message : Bytes) : m Bytes := do
  orValueError (← X.calcSig rand signingKey message)

/-! ## axolotl/sessioncipher.py:203-223 -/

def cbcEnc (key : Bytes) : Nat → Bytes → Bytes → m Bytes
  | 0, _, _ => pure []
  | n + 1, prev, d => do
    let c ← X.aesEnc key (AES.xorB prev (d.take 16))
    let rest ← cbcEnc key n c (d.drop 16)
    pure (c ++ rest)

def cbcDec (key : Bytes) : Nat → Bytes → Bytes → m Bytes
  | 0, _, _ => pure []
  | n + 1, prev, c => do
    let d ← X.aesDec key (c.take 16)
    let rest ← cbcDec key n (c.take 16) (c.drop 16)
    pure (AES.xorB prev d ++ rest)

def aesEncrypt (key iv raw : Bytes) : m Bytes :=
  if AES.validParams key iv then
    let p := AES.pad raw
    cbcEnc X key (p.length / 16) iv p
  else fail .valueError

def aesDecrypt (key iv enc : Bytes) : m Bytes :=
  if AES.validParams key iv then
    if enc.length % 16 = 0 then do
      let d ← cbcDec X key (enc.length / 16) iv enc
      lift (AES.unpad d)
    else fail .valueError
  else fail .valueError

/-! ## axolotl/ratchet/ -/

/-- axolotl/ratchet/chainkey.py:25-27 -/
def getNextChainKey (c : ChainKey) : m ChainKey := do
  let key ← X.hmac c.key ChainKey.CHAIN_KEY_SEED
  pure { kdf := c.kdf, key := key, index := c.index + 1 }

/-- axolotl/ratchet/chainkey.py:29-35 -/
def getMessageKeys (c : ChainKey) : m MessageKeys := do
  let material ← X.hmac c.key ChainKey.MESSAGE_KEY_SEED
  let okm ← deriveSecrets X c.kdf material ChainKey.MESSAGE_KEYS_INFO DerivedMessageSecrets.SIZE
  let keys := split3 okm 32 32 16
  pure { cipherKey := keys.1, macKey := keys.2.1, iv := keys.2.2, counter := c.index }

/-- axolotl/ratchet/rootkey.py:16-25 -/
def createChain (r : RootKey) (theirRatchetKey : ECPub) (ourRatchetKey : KeyPair) : m (RootKey × ChainKey) := do
  let sharedSecret ← calculateAgreement X theirRatchetKey ourRatchetKey.priv
  let okm ← deriveSecrets X r.kdf sharedSecret RootKey.RATCHET_INFO DerivedRootSecrets.SIZE r.key
  let derived := split2 okm 32 32
  pure ({ kdf := r.kdf, key := derived.1 }, { kdf := r.kdf, key := derived.2, index := 0 })

/-- axolotl/ratchet/ratchetingsession.py:106-112 -/
def calculateDerivedKeys (masterSecret : Bytes) : m (RootKey × ChainKey) := do
  let okm ← deriveSecrets X .v3 masterSecret RatchetingSession.TEXT_INFO 64
  let derived := split2 okm 32 32
  pure ({ kdf := .v3, key := derived.1 }, { kdf := .v3, key := derived.2, index := 0 })

/-- axolotl/ratchet/ratchetingsession.py:50-63 -/
def aliceSecrets (p : AliceParameters) : m Bytes := do
  let a1 ← calculateAgreement X p.theirSignedPreKey p.ourIdentityKey.priv
  let a2 ← calculateAgreement X p.theirIdentityKey p.ourBaseKey.priv
  let a3 ← calculateAgreement X p.theirSignedPreKey p.ourBaseKey.priv
  let a4 ← match p.theirOneTimePreKey with
    | none => pure []
    | some k => calculateAgreement X k p.ourBaseKey.priv
  pure (RatchetingSession.discontinuityBytes ++ a1 ++ a2 ++ a3 ++ a4)

/-- axolotl/ratchet/ratchetingsession.py:39-70 -/
def initializeSessionAsAlice (s : SessionState) (p : AliceParameters) (seed : Bytes) : m SessionState := do
  let s := s.setSessionVersion CiphertextMessage.CURRENT_VERSION
  let s := s.setRemoteIdentityKey p.theirIdentityKey
  let s := s.setLocalIdentityKey p.ourIdentityKey.pub
  let sendingRatchetKey ← generateKeyPair X seed
  let secrets ← aliceSecrets X p
  let derivedKeys ← calculateDerivedKeys X secrets
  let sendingChain ← createChain X derivedKeys.1 p.theirRatchetKey sendingRatchetKey
  let s ← lift (s.addReceiverChain p.theirRatchetKey derivedKeys.2)
  let s ← lift (s.setSenderChain sendingRatchetKey sendingChain.2)
  pure (s.setRootKey sendingChain.1)

/-- axolotl/ratchet/ratchetingsession.py:82-95 -/
def bobSecrets (p : BobParameters) : m Bytes := do
  let a1 ← calculateAgreement X p.theirIdentityKey p.ourSignedPreKey.priv
  let a2 ← calculateAgreement X p.theirBaseKey p.ourIdentityKey.priv
  let a3 ← calculateAgreement X p.theirBaseKey p.ourSignedPreKey.priv
  let a4 ← match p.ourOneTimePreKey with
    | none => pure []
    | some k => calculateAgreement X p.theirBaseKey k.priv
  pure (RatchetingSession.discontinuityBytes ++ a1 ++ a2 ++ a3 ++ a4)

/-- axolotl/ratchet/ratchetingsession.py:72-100 -/
def initializeSessionAsBob (s : SessionState) (p : BobParameters) : m SessionState := do
  let s := s.setSessionVersion CiphertextMessage.CURRENT_VERSION
  let s := s.setRemoteIdentityKey p.theirIdentityKey
  let s := s.setLocalIdentityKey p.ourIdentityKey.pub
  let secrets ← bobSecrets X p
  let derivedKeys ← calculateDerivedKeys X secrets
  let s ← lift (s.setSenderChain p.ourRatchetKey derivedKeys.2)
  pure (s.setRootKey derivedKeys.1)

/-- axolotl/ratchet/ratchetingsession.py:14-37 -/
def initializeSession (s : SessionState) (p : SymmetricParameters) (seed : Bytes) : m SessionState := do
  if ← lift (RatchetingSession.isAlice p.ourBaseKey.pub p.theirBaseKey) then
    initializeSessionAsAlice X s
      { ourBaseKey := p.ourBaseKey, ourIdentityKey := p.ourIdentityKey,
        theirRatchetKey := p.theirRatchetKey, theirIdentityKey := p.theirIdentityKey,
        theirSignedPreKey := p.theirBaseKey, theirOneTimePreKey := none } seed
  else
    initializeSessionAsBob X s
      { ourIdentityKey := p.ourIdentityKey, ourRatchetKey := p.ourRatchetKey,
        ourSignedPreKey := p.ourBaseKey, ourOneTimePreKey := none,
        theirBaseKey := p.theirBaseKey, theirIdentityKey := p.theirIdentityKey }

/-! ## axolotl/protocol/whispermessage.py -/

/-- axolotl/protocol/whispermessage.py:90-98 -/
def getMac (messageVersion : Nat) (senderIdentityKey receiverIdentityKey : ECPub) (macKey : Bytes) (serialized : Bytes) : m Bytes := do
  let ids := if messageVersion ≥ 3 then
    Curve.serializePoint senderIdentityKey ++ Curve.serializePoint receiverIdentityKey else []
  let mac ← X.hmac macKey (ids ++ serialized)
  pure (trim mac WhisperMessage.MAC_LENGTH)

/-- axolotl/protocol/whispermessage.py:52-66 -/
def createWhisperMessage (messageVersion : Nat) (macKey : Bytes) (senderRatchetKey : ECPub) (counter previousCounter : Nat)
    (ciphertext : Bytes) (senderIdentityKey receiverIdentityKey : ECPub) : m WhisperMessage := do
  let version := intsToByteHighAndLow messageVersion CiphertextMessage.CURRENT_VERSION
  let c ← lift (chkU32 counter)
  let pc ← lift (chkU32 previousCounter)
  let message := serializeWith WhisperMessageP.toFields
    { ratchetKey := some (Curve.serializePoint senderRatchetKey), counter := some c,
      previousCounter := some pc, ciphertext := some ciphertext }
  let mac ← getMac X messageVersion senderIdentityKey receiverIdentityKey macKey (version :: message)
  pure { serialized := version :: (message ++ mac), senderRatchetKey := senderRatchetKey,
         counter := counter, previousCounter := previousCounter, ciphertext := ciphertext,
         messageVersion := messageVersion }

/-- axolotl/protocol/whispermessage.py:80-88 -/
def verifyMac (msg : WhisperMessage) (messageVersion : Nat) (senderIdentityKey receiverIdentityKey : ECPub) (macKey : Bytes) : m Unit := do
  let parts := split2 msg.serialized ((msg.serialized.length : Int) - WhisperMessage.MAC_LENGTH) WhisperMessage.MAC_LENGTH
  let ourMac ← getMac X messageVersion senderIdentityKey receiverIdentityKey macKey parts.1
  let theirMac := parts.2
  if ourMac ≠ theirMac then fail .invalidMessage else pure ()

/-! ## axolotl/sessioncipher.py -/

/-- axolotl/sessioncipher.py:36-58 -/
def encryptWithState (s : SessionState) (paddedMessage : Bytes) : m (Ciphertext × SessionState) := do
  let chainKey ← lift s.getSenderChainKey
  let messageKeys ← getMessageKeys X chainKey
  let senderEphemeral ← lift s.getSenderRatchetKey
  let previousCounter := s.getPreviousCounter
  let sessionVersion := s.getSessionVersion
  let ciphertextBody ← aesEncrypt X messageKeys.cipherKey messageKeys.iv paddedMessage
  let localId ← lift s.getLocalIdentityKey
  let remoteId ← lift s.getRemoteIdentityKey
  let msg ← createWhisperMessage X sessionVersion messageKeys.macKey senderEphemeral chainKey.index
    previousCounter ciphertextBody localId remoteId
  let c ← if s.hasUnacknowledgedPreKeyMessage then do
      let items ← lift s.getUnacknowledgedPreKeyMessageItems
      let pm ← lift (PreKeyWhisperMessage.create sessionVersion s.getLocalRegistrationId items.preKeyId
        items.signedPreKeyId items.baseKey localId msg)
      pure (Ciphertext.preKey pm)
    else pure (Ciphertext.whisper msg)
  let next ← getNextChainKey X chainKey
  let s ← lift (s.setSenderChainKey next)
  pure (c, s)

/-- axolotl/sessioncipher.py:149-164 -/
def getOrCreateChainKey (s : SessionState) (theirEphemeral : ECPub) (seed : Bytes) : m (ChainKey × SessionState) := do
  if ← lift (s.hasReceiverChain theirEphemeral) then do
    let ck ← lift (s.getReceiverChainKey theirEphemeral)
    pure (ck, s)
  else do
    let rootKey ← lift s.getRootKey
    let ourEphemeral ← lift s.getSenderRatchetKeyPair
    let receiverChain ← createChain X rootKey theirEphemeral ourEphemeral
    let ourNewEphemeral ← generateKeyPair X seed
    let senderChain ← createChain X receiverChain.1 theirEphemeral ourNewEphemeral
    let s := s.setRootKey senderChain.1
    let s ← lift (s.addReceiverChain theirEphemeral receiverChain.2)
    let sck ← lift s.getSenderChainKey
    let s := s.setPreviousCounter (sck.index - 1)
    let s ← lift (s.setSenderChain ourNewEphemeral senderChain.2)
    pure (receiverChain.2, s)

/-- axolotl/sessioncipher.py:178-181 -/
def skipLoop (theirEphemeral : ECPub) : Nat → SessionState → ChainKey → m (SessionState × ChainKey)
  | 0, s, ck => pure (s, ck)
  | n + 1, s, ck => do
    let keys ← getMessageKeys X ck
    let s ← lift (s.setMessageKeys theirEphemeral keys)
    let ck ← getNextChainKey X ck
    skipLoop theirEphemeral n s ck

/-- axolotl/sessioncipher.py:166-184 -/
def getOrCreateMessageKeys (s : SessionState) (theirEphemeral : ECPub) (chainKey : ChainKey) (counter : Nat) :
    m (MessageKeys × SessionState) := do
  if chainKey.index > counter then do
    if ← lift (s.hasMessageKeys theirEphemeral counter) then
      lift (s.removeMessageKeys theirEphemeral counter)
    else fail .duplicateMessage
  else if (counter : Int) - chainKey.index > SessionCipher.MAX_FUTURE then fail .invalidMessage
  else do
    let r ← skipLoop X theirEphemeral (counter - chainKey.index) s chainKey
    let next ← getNextChainKey X r.2
    let s ← lift (r.1.setReceiverChainKey theirEphemeral next)
    let keys ← getMessageKeys X r.2
    pure (keys, s)

/-- axolotl/sessioncipher.py:125-147 -/
def decryptWithSessionState (s : SessionState) (msg : WhisperMessage) (seed : Bytes) : m (Bytes × SessionState) :=
  if !s.hasSenderChain then fail .invalidMessage
  else if msg.messageVersion ≠ s.getSessionVersion then fail .invalidMessage
  else do
    let r ← getOrCreateChainKey X s msg.senderRatchetKey seed
    let r ← getOrCreateMessageKeys X r.2 msg.senderRatchetKey r.1 msg.counter
    let messageKeys := r.1
    let s := r.2
    let remoteId ← lift s.getRemoteIdentityKey
    let localId ← lift s.getLocalIdentityKey
    verifyMac X msg msg.messageVersion remoteId localId messageKeys.macKey
    let plaintext ← aesDecrypt X messageKeys.cipherKey messageKeys.iv msg.ciphertext
    pure (plaintext, s.clearUnacknowledgedPreKeyMessage)

/-- axolotl/sessioncipher.py:112-121 -/
def tryPrevious (r : SessionRecord) (msg : WhisperMessage) (seeds : Nat → Bytes) : List SessionState → Nat → m (Bytes × SessionRecord)
  | [], _ => fail .invalidMessage
  | p :: rest, i => do
    match ← attempt (decryptWithSessionState X p msg (seeds i)) with
    | .ok (pt, s) => pure (pt, { r with previousStates := r.previousStates.eraseIdx i }.promoteState s)
    | .error .invalidMessage => tryPrevious r msg seeds rest (i + 1)
    | .error e => fail e

/-- axolotl/sessioncipher.py:96-123 -/
def decryptWithSessionRecord (r : SessionRecord) (msg : WhisperMessage) (seed : Bytes) (seeds : Nat → Bytes) : m (Bytes × SessionRecord) := do
  match ← attempt (decryptWithSessionState X r.sessionState msg seed) with
  | .ok (pt, s) => pure (pt, r.setState s)
  | .error .invalidMessage => tryPrevious X r msg seeds r.previousStates 0
  | .error e => fail e

/-- `Outcome.ofRes`. -/
def outcome {α : Type} (x : m (List Write × α)) : m (Outcome α) := do
  pure (Outcome.ofRes (← attempt x))

/-- axolotl/sessioncipher.py:31-61 -/
def encrypt (w : World) (addr : Address) (paddedMessage : Bytes) : m (Outcome Ciphertext) :=
  outcome do
    let sessionRecord := w.loadSession addr
    let r ← encryptWithState X sessionRecord.sessionState paddedMessage
    pure ([.session addr (sessionRecord.setState r.2)], r.1)

/-- axolotl/sessioncipher.py:63-78 -/
def decryptMsg (w : World) (addr : Address) (msg : WhisperMessage) (seed : Bytes) (seeds : Nat → Bytes) : m (Outcome Bytes) :=
  outcome
    (if !w.containsSession addr then fail .noSession
     else do
      let r ← decryptWithSessionRecord X (w.loadSession addr) msg seed seeds
      pure ([.session addr r.2], r.1))

/-! ## axolotl/sessionbuilder.py -/

/-- axolotl/sessionbuilder.py:50-86 -/
def processV3 (w : World) (r : SessionRecord) (msg : PreKeyWhisperMessage) : m (SessionRecord × Option Nat) :=
  if r.hasSessionState msg.version (Curve.serializePoint msg.baseKey) then pure (r, none)
  else do
    let spk ← lift (w.loadSignedPreKey msg.signedPreKeyId)
    let ourSignedPreKey ← lift (SignedPreKeyRecord.getKeyPair spk)
    let oneTime ← match msg.preKeyId with
      | none => pure none
      | some id => do
        let pk ← lift (w.loadPreKey id)
        let kp ← lift (PreKeyRecord.getKeyPair pk)
        pure (some kp)
    let r := SessionBuilder.archiveUnlessFresh r
    let s ← initializeSessionAsBob X r.sessionState
      { theirBaseKey := msg.baseKey, theirIdentityKey := msg.identityKey,
        ourIdentityKey := w.identityKeyPair, ourSignedPreKey := ourSignedPreKey,
        ourRatchetKey := ourSignedPreKey, ourOneTimePreKey := oneTime }
    let s ← lift (s.setLocalRegistrationId w.registrationId)
    let s ← lift (s.setRemoteRegistrationId msg.registrationId)
    let s := s.setAliceBaseKey (Curve.serializePoint msg.baseKey)
    let unsigned := match msg.preKeyId with
      | none => none
      | some id => if id ≠ Medium.MAX_VALUE then some id else none
    pure (r.setState s, unsigned)

/-- axolotl/sessionbuilder.py:32-48 -/
def process (w : World) (addr : Address) (r : SessionRecord) (msg : PreKeyWhisperMessage) : m (Outcome (SessionRecord × Option Nat)) :=
  if !w.isTrusted addr.1 msg.identityKey then pure ⟨[], .error .untrustedIdentity⟩
  else do
    match ← attempt (processV3 X w r msg) with
    | .error e => pure ⟨[], .error e⟩
    | .ok x => pure ⟨[.identity addr.1 msg.identityKey], .ok x⟩

/-- axolotl/sessioncipher.py:80-94 -/
def decryptPkmsg (w : World) (addr : Address) (msg : PreKeyWhisperMessage) (seed : Bytes) (seeds : Nat → Bytes) : m (Outcome Bytes) := do
  let o ← process X w addr (w.loadSession addr) msg
  match o.result with
  | .error e => pure ⟨o.writes, .error e⟩
  | .ok (r, unsignedPreKeyId) =>
    match ← attempt (decryptWithSessionRecord X r msg.message seed seeds) with
    | .error e => pure ⟨o.writes, .error e⟩
    | .ok (pt, r') => pure ⟨o.writes ++ [.session addr r'] ++ (unsignedPreKeyId.map Write.removePreKey).toList, .ok pt⟩

/-- axolotl/sessionbuilder.py:88-131 -/
def processPreKeyBundle (w : World) (addr : Address) (b : PreKeyBundle) (baseSeed ratchetSeed : Bytes) : m (Outcome Unit) :=
  outcome
    (if !w.isTrusted addr.1 b.identityKey then fail .untrustedIdentity
     else match b.signedPreKey with
      | none => fail .invalidKey
      | some theirSignedPreKey => do
        let ok ← verifySignature X b.identityKey (Curve.serializePoint theirSignedPreKey) b.signedPreKeySignature
        if !ok then fail .invalidKey
        else do
          let r := w.loadSession addr
          let ourBaseKey ← generateKeyPair X baseSeed
          let theirOneTimePreKeyId := b.preKey.map fun _ => b.preKeyId
          let r := SessionBuilder.archiveUnlessFresh r
          let s ← initializeSessionAsAlice X r.sessionState
            { ourBaseKey := ourBaseKey, ourIdentityKey := w.identityKeyPair,
              theirIdentityKey := b.identityKey, theirSignedPreKey := theirSignedPreKey,
              theirRatchetKey := theirSignedPreKey, theirOneTimePreKey := b.preKey } ratchetSeed
          let s ← lift (s.setUnacknowledgedPreKeyMessage theirOneTimePreKeyId b.signedPreKeyId ourBaseKey.pub)
          let s ← lift (s.setLocalRegistrationId w.registrationId)
          let s ← lift (s.setRemoteRegistrationId b.registrationId)
          let s := s.setAliceBaseKey (Curve.serializePoint ourBaseKey.pub)
          pure ([.session addr (r.setState s), .identity addr.1 b.identityKey], ()))

/-- axolotl/sessionbuilder.py:147-180 -/
def processInitiateState (w : World) (addr : Address) (msg : KeyExchangeMessage) (rnd : SessionBuilder.InitiateRand) :
    m (SessionRecord × Nat × SymmetricParameters) := do
  let r := w.loadSession addr
  let ok ← verifySignature X msg.identityKey (Curve.serializePoint msg.baseKey) msg.baseKeySignature
  if !ok then fail .invalidKey
  else do
    let st := r.sessionState
    let (flags, ourIdentityKey, ourBaseKey, ourRatchetKey) ←
      if !st.hasPendingKeyExchange then do
        let bk ← generateKeyPair X rnd.baseSeed
        let rk ← generateKeyPair X rnd.ratchetSeed
        pure (KeyExchangeMessage.RESPONSE_FLAG, w.identityKeyPair, bk, rk)
      else do
        let ik ← lift st.getPendingKeyExchangeIdentityKey
        let bk ← lift st.getPendingKeyExchangeBaseKey
        let rk ← lift st.getPendingKeyExchangeRatchetKey
        pure (KeyExchangeMessage.RESPONSE_FLAG ||| KeyExchangeMessage.SIMULTAENOUS_INITIATE_FLAG, ik, bk, rk)
    let p : SymmetricParameters :=
      { ourIdentityKey := ourIdentityKey, ourBaseKey := ourBaseKey, ourRatchetKey := ourRatchetKey,
        theirBaseKey := msg.baseKey, theirRatchetKey := msg.ratchetKey, theirIdentityKey := msg.identityKey }
    let r := SessionBuilder.archiveUnlessFresh r
    let s ← initializeSession X r.sessionState p rnd.sendSeed
    pure (r.setState s, flags, p)

/-- axolotl/sessionbuilder.py:147-189 -/
def processInitiate (w : World) (addr : Address) (msg : KeyExchangeMessage) (rnd : SessionBuilder.InitiateRand) :
    m (Outcome (Option KeyExchangeMessage)) := do
  match ← attempt (processInitiateState X w addr msg rnd) with
  | .error e => pure ⟨[], .error e⟩
  | .ok (r, flags, p) => do
    let resp ← attempt do
      let sig ← calculateSignature X rnd.sigRand p.ourIdentityKey.priv (Curve.serializePoint p.ourBaseKey.pub)
      let resp ← lift (KeyExchangeMessage.create r.sessionState.getSessionVersion msg.sequence flags
        p.ourBaseKey.pub sig p.ourRatchetKey.pub p.ourIdentityKey.pub)
      pure (some resp)
    pure ⟨[.session addr r, .identity addr.1 msg.identityKey], resp⟩

/-- axolotl/sessionbuilder.py:191-227 -/
def processResponse (w : World) (addr : Address) (msg : KeyExchangeMessage) (sendSeed : Bytes) : m (Outcome (Option KeyExchangeMessage)) :=
  let r := w.loadSession addr
  let st := r.sessionState
  if !st.hasPendingKeyExchange || st.getPendingKeyExchangeSequence != msg.sequence then
    if !msg.isResponseForSimultaneousInitiate then pure ⟨[], .error .staleKeyExchange⟩ else pure ⟨[], .ok none⟩
  else outcome do
    let bk ← lift st.getPendingKeyExchangeBaseKey
    let rk ← lift st.getPendingKeyExchangeRatchetKey
    let ik ← lift st.getPendingKeyExchangeIdentityKey
    let r := SessionBuilder.archiveUnlessFresh r
    let s ← initializeSession X r.sessionState
      { ourBaseKey := bk, ourRatchetKey := rk, ourIdentityKey := ik, theirBaseKey := msg.baseKey,
        theirRatchetKey := msg.ratchetKey, theirIdentityKey := msg.identityKey } sendSeed
    let ok ← verifySignature X msg.identityKey (Curve.serializePoint msg.baseKey) msg.baseKeySignature
    if !ok then fail .invalidKey
    else pure ([.session addr (r.setState s), .identity addr.1 msg.identityKey], none)

/-- axolotl/sessionbuilder.py:133-145 -/
def processKeyExchangeMessage (w : World) (addr : Address) (msg : KeyExchangeMessage) (rnd : SessionBuilder.InitiateRand) :
    m (Outcome (Option KeyExchangeMessage)) :=
  if !w.isTrusted addr.1 msg.identityKey then pure ⟨[], .error .untrustedIdentity⟩
  else if msg.isInitiate then processInitiate X w addr msg rnd
  else processResponse X w addr msg rnd.sendSeed

/-- axolotl/sessionbuilder.py:229-245 -/
def processInitKeyExchangeMessage (w : World) (addr : Address) (rnd : Nat) (baseSeed ratchetSeed sigRand : Bytes) :
    m (Outcome KeyExchangeMessage) := do
  let sequence := rnd + 1
  let baseKey ← generateKeyPair X baseSeed
  let ratchetKey ← generateKeyPair X ratchetSeed
  let identityKey := w.identityKeyPair
  let x : Res (Bytes × SessionRecord) ← attempt do
    let sig ← calculateSignature X sigRand identityKey.priv (Curve.serializePoint baseKey.pub)
    let r := w.loadSession addr
    let s ← lift (r.sessionState.setPendingKeyExchange sequence baseKey ratchetKey identityKey)
    pure (sig, r.setState s)
  match x with
  | .error e => pure ⟨[], .error e⟩
  | .ok (sig, r) =>
    pure ⟨[.session addr r],
      KeyExchangeMessage.create CiphertextMessage.CURRENT_VERSION sequence
        KeyExchangeMessage.INITIATE_FLAG baseKey.pub sig ratchetKey.pub identityKey.pub⟩

/-- One call of the session API. -/
def run (w : World) : Call → m (Outcome Reply)
  | .encrypt a p => do pure (Call.mapOutcome .ciphertext (← encrypt X w a p))
  | .decryptMsg a msg s ss => do pure (Call.mapOutcome .plaintext (← decryptMsg X w a msg s ss))
  | .decryptPkmsg a msg s ss => do pure (Call.mapOutcome .plaintext (← decryptPkmsg X w a msg s ss))
  | .processBundle a b s1 s2 => do pure (Call.mapOutcome (fun _ => .done) (← processPreKeyBundle X w a b s1 s2))
  | .processKeyExchange a msg r => do pure (Call.mapOutcome .keyExchange (← processKeyExchangeMessage X w a msg r))
  | .initKeyExchange a n s1 s2 s3 => do
    pure (Call.mapOutcome (fun x => .keyExchange (some x)) (← processInitKeyExchangeMessage X w a n s1 s2 s3))

/-! ## axolotl/groups/ -/

/-- axolotl/groups/ratchet/sendermessagekey.py:8-19 -/
def senderMessageKey (iteration : Nat) (seed : Bytes) : m SenderMessageKey := do
  let okm ← deriveSecrets X .v3 seed SenderMessageKey.GROUP_INFO 48
  let parts := split2 okm 16 32
  pure { iteration := iteration, seed := seed, iv := parts.1, cipherKey := parts.2 }

/-- axolotl/groups/ratchet/senderchainkey.py:24-25,33-35 -/
def getSenderMessageKey (c : SenderChainKey) : m SenderMessageKey := do
  let seed ← X.hmac c.chainKey SenderChainKey.MESSAGE_KEY_SEED
  senderMessageKey X c.iteration seed

/-- axolotl/groups/ratchet/senderchainkey.py:27-28,33-35 -/
def getNext (c : SenderChainKey) : m SenderChainKey := do
  let key ← X.hmac c.chainKey SenderChainKey.CHAIN_KEY_SEED
  pure { iteration := c.iteration + 1, chainKey := key }

/-- axolotl/groups/state/senderkeystate.py:79-93 -/
def removeSenderMessageKey (s : SenderKeyState) (iteration : Nat) : m (Option SenderMessageKey × SenderKeyState) :=
  match SenderKeyState.takeKey iteration s.senderMessageKeys with
  | none => pure (none, s)
  | some (k, rest) => do
    let key ← senderMessageKey X (k.iteration.getD 0) (k.seed.getD [])
    pure (some key, { s with senderMessageKeys := rest })

/-- axolotl/protocol/senderkeymessage.py:49-64 -/
def createSenderKeyMessage (keyId iteration : Nat) (ciphertext : Bytes) (signatureKey : ECPriv) (rand : Bytes) : m SenderKeyMessage := do
  let version := intsToByteHighAndLow CiphertextMessage.CURRENT_VERSION CiphertextMessage.CURRENT_VERSION
  let id ← lift (chkU32 keyId)
  let it ← lift (chkU32 iteration)
  let message := serializeWith SenderKeyMessageP.toFields
    { id := some id, iteration := some it, ciphertext := some ciphertext }
  let signature ← calculateSignature X rand signatureKey (version :: message)
  pure { serialized := version :: (message ++ signature), messageVersion := CiphertextMessage.CURRENT_VERSION,
         keyId := keyId, iteration := iteration, ciphertext := ciphertext }

/-- axolotl/protocol/senderkeymessage.py:76-88 -/
def verifySenderKeyMessage (msg : SenderKeyMessage) (signatureKey : ECPub) : m Unit := do
  let parts := split2 msg.serialized ((msg.serialized.length : Int) - SenderKeyMessage.SIGNATURE_LENGTH) SenderKeyMessage.SIGNATURE_LENGTH
  let ok ← verifySignature X signatureKey parts.1 parts.2
  if ok then pure () else fail .invalidMessage

/-- axolotl/groups/groupcipher.py:26-35 -/
def encryptWithRecord (record : SenderKeyRecord) (paddedPlaintext : Bytes) (rand : Bytes) : m (SenderKeyMessage × SenderKeyRecord) := do
  let st ← lift record.getFirstState
  let senderKey ← getSenderMessageKey X (SenderKeyState.getSenderChainKey st)
  let ciphertext ← aesEncrypt X senderKey.cipherKey senderKey.iv paddedPlaintext
  let msg ← createSenderKeyMessage X (SenderKeyState.getKeyId st) senderKey.iteration ciphertext
    (SenderKeyState.getSigningKeyPrivate st) rand
  let next ← getNext X (SenderKeyState.getSenderChainKey st)
  let st ← lift (SenderKeyState.setSenderChainKey st next)
  pure (msg, record.replace 0 st)

/-- axolotl/groups/groupcipher.py:20-40 -/
def groupEncrypt (g : GroupStore) (n : SenderKeyName) (paddedPlaintext : Bytes) (rand : Bytes) : m (GOutcome Bytes) := do
  match ← attempt (encryptWithRecord X (g n) paddedPlaintext rand) with
  | .ok (msg, r) => pure ⟨some r, .ok msg.serialized⟩
  | .error e => pure ⟨none, GroupCipher.wrapNoSession (.error e)⟩

/-- axolotl/groups/groupcipher.py:78-80 -/
def groupSkipLoop : Nat → SenderKeyState → SenderChainKey → m (SenderKeyState × SenderChainKey)
  | 0, s, c => pure (s, c)
  | k + 1, s, c => do
    let key ← getSenderMessageKey X c
    let s ← lift (SenderKeyState.addSenderMessageKey s key)
    let c ← getNext X c
    groupSkipLoop k s c

/-- axolotl/groups/groupcipher.py:65-83 -/
def getSenderKey (s : SenderKeyState) (iteration : Nat) : m (SenderMessageKey × SenderKeyState) :=
  let c := SenderKeyState.getSenderChainKey s
  if c.iteration > iteration then
    if SenderKeyState.hasSenderMessageKey s iteration then do
      match ← removeSenderMessageKey X s iteration with
      | (some k, s) => pure (k, s)
      | (none, _) => fail .typeError
    else fail .duplicateMessage
  else if (c.iteration : Int) - iteration > 2000 then fail .invalidMessage
  else do
    let r ← groupSkipLoop X (iteration - c.iteration) s c
    let next ← getNext X r.2
    let s ← lift (SenderKeyState.setSenderChainKey r.1 next)
    let key ← getSenderMessageKey X r.2
    pure (key, s)

/-- axolotl/groups/groupcipher.py:85-96 -/
def getPlainText (iv key ciphertext : Bytes) : m Bytes := do
  lift (SenderKeyMessage.wrapAll (← attempt (aesDecrypt X key iv ciphertext)))

/-- axolotl/groups/groupcipher.py:48-57 -/
def decryptWithRecord (record : SenderKeyRecord) (bytes : Bytes) : m (Bytes × SenderKeyRecord) :=
  if record.isEmpty then fail .noSession
  else do
    let msg ← lift (SenderKeyMessage.parse bytes)
    let st ← lift (record.getStateById msg.keyId)
    let pub ← lift (SenderKeyState.getSigningKeyPublic st.1)
    verifySenderKeyMessage X msg pub
    let k ← getSenderKey X st.1 msg.iteration
    let pt ← getPlainText X k.1.iv k.1.cipherKey msg.ciphertext
    pure (pt, record.replace st.2 k.2)

/-- axolotl/groups/groupcipher.py:42-63 -/
def groupDecrypt (g : GroupStore) (n : SenderKeyName) (bytes : Bytes) : m (GOutcome Bytes) := do
  match ← attempt (decryptWithRecord X (g n) bytes) with
  | .ok (pt, r) => pure ⟨some r, .ok pt⟩
  | .error e => pure ⟨none, GroupCipher.wrapInvalid (.error e)⟩

/-- axolotl/groups/groupsessionbuilder.py:23-44 -/
def groupCreate (g : GroupStore) (n : SenderKeyName) (rnd : GroupSessionBuilder.CreateRand) : m (GOutcome SenderKeyDistributionMessage) :=
  if (g n).isEmpty then do
    let signing ← generateKeyPair X rnd.signSeed
    pure (GroupSessionBuilder.storeCreated ((g n).setSenderKeyState rnd.keyId 0 rnd.senderKey signing))
  else pure ⟨none, GroupSessionBuilder.wrapAssert (GroupSessionBuilder.distributionOf (g n))⟩

/-- One call of the group API. -/
def groupRun (g : GroupStore) : GroupCall → m (GOutcome GroupReply)
  | .encrypt n pt rand => do pure (GroupCall.mapG .bytes (← groupEncrypt X g n pt rand))
  | .decrypt n b => do pure (GroupCall.mapG .bytes (← groupDecrypt X g n b))
  | .process n msg => pure (GroupCall.mapG (fun _ => .done) (GroupSessionBuilder.process g n msg))
  | .create n rnd => do pure (GroupCall.mapG .distribution (← groupCreate X g n rnd))

end Work
end Axolotl
