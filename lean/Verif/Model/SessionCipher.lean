import Verif.Model.World
import Verif.Model.Aes

/-! # axolotl/sessioncipher.py and axolotl/sessionbuilder.py -/

namespace Axolotl
variable [Crypto]

/-- What `SessionCipher.encrypt` returns: a `WhisperMessage` or a `PreKeyWhisperMessage`
(axolotl/protocol/ciphertextmessage.py:12-15 `getType`). -/
inductive Ciphertext where
  | whisper (m : WhisperMessage)
  | preKey (m : PreKeyWhisperMessage)
  deriving DecidableEq, Repr

/-- axolotl/protocol/whispermessage.py:100-101, axolotl/protocol/prekeywhispermessage.py:98-99 -/
def Ciphertext.serialize : Ciphertext → Bytes
  | .whisper m => m.serialized
  | .preKey m => m.serialized

/-- axolotl/protocol/whispermessage.py:103-104, axolotl/protocol/prekeywhispermessage.py:101-102 -/
def Ciphertext.getType : Ciphertext → Nat
  | .whisper _ => CiphertextMessage.WHISPER_TYPE
  | .preKey _ => CiphertextMessage.PREKEY_TYPE

/-- The `WhisperMessage` carried: the message itself or `getWhisperMessage()`
(axolotl/protocol/prekeywhispermessage.py:95-96). -/
def Ciphertext.inner : Ciphertext → WhisperMessage
  | .whisper m => m
  | .preKey m => m.message

namespace SessionCipher

/-- axolotl/sessioncipher.py:36-58: encryption of one message with a session state, returning the
message and the advanced state. -/
def encryptWithState (s : SessionState) (paddedMessage : Bytes) : Res (Ciphertext × SessionState) := do
  let chainKey ← s.getSenderChainKey
  let messageKeys := chainKey.getMessageKeys
  let senderEphemeral ← s.getSenderRatchetKey
  let previousCounter := s.getPreviousCounter
  let sessionVersion := s.getSessionVersion
  let ciphertextBody ← AES.encrypt messageKeys.cipherKey messageKeys.iv paddedMessage
  let localId ← s.getLocalIdentityKey
  let remoteId ← s.getRemoteIdentityKey
  let m ← WhisperMessage.create sessionVersion messageKeys.macKey senderEphemeral chainKey.index
    previousCounter ciphertextBody localId remoteId
  let c ← if s.hasUnacknowledgedPreKeyMessage then do
      let items ← s.getUnacknowledgedPreKeyMessageItems
      let pm ← PreKeyWhisperMessage.create sessionVersion s.getLocalRegistrationId items.preKeyId
        items.signedPreKeyId items.baseKey localId m
      Except.ok (Ciphertext.preKey pm)
    else .ok (Ciphertext.whisper m)
  let s ← s.setSenderChainKey chainKey.getNextChainKey
  .ok (c, s)

/-- axolotl/sessioncipher.py:31-61 -/
def encrypt (w : World) (addr : Address) (paddedMessage : Bytes) : Outcome Ciphertext :=
  Outcome.ofRes do
    let sessionRecord := w.loadSession addr
    let r ← encryptWithState sessionRecord.sessionState paddedMessage
    .ok ([.session addr (sessionRecord.setState r.2)], r.1)

/-- axolotl/sessioncipher.py:149-164; `seed` is the randomness of `ourNewEphemeral`. -/
def getOrCreateChainKey (s : SessionState) (theirEphemeral : ECPub) (seed : Bytes) :
    Res (ChainKey × SessionState) := do
  if ← s.hasReceiverChain theirEphemeral then do
    let ck ← s.getReceiverChainKey theirEphemeral
    .ok (ck, s)
  else do
    let rootKey ← s.getRootKey
    let ourEphemeral ← s.getSenderRatchetKeyPair
    let receiverChain ← rootKey.createChain theirEphemeral ourEphemeral
    let ourNewEphemeral := Curve.generateKeyPair seed
    let senderChain ← receiverChain.1.createChain theirEphemeral ourNewEphemeral
    let s := s.setRootKey senderChain.1
    let s ← s.addReceiverChain theirEphemeral receiverChain.2
    let sck ← s.getSenderChainKey
    let s := s.setPreviousCounter (sck.index - 1)
    let s ← s.setSenderChain ourNewEphemeral senderChain.2
    .ok (receiverChain.2, s)

/-- The `while` loop of axolotl/sessioncipher.py:178-181, `n = counter - chainKey.getIndex()`
iterations: remember the keys of the skipped messages. -/
def skipLoop (theirEphemeral : ECPub) : Nat → SessionState → ChainKey → Res (SessionState × ChainKey)
  | 0, s, ck => .ok (s, ck)
  | n + 1, s, ck => do
    let s ← s.setMessageKeys theirEphemeral ck.getMessageKeys
    skipLoop theirEphemeral n s ck.getNextChainKey

/-- axolotl/sessioncipher.py:175: the `2000` -/
def MAX_FUTURE : Nat := 2000

/-- axolotl/sessioncipher.py:166-184 -/
def getOrCreateMessageKeys (s : SessionState) (theirEphemeral : ECPub) (chainKey : ChainKey)
    (counter : Nat) : Res (MessageKeys × SessionState) := do
  if chainKey.index > counter then do
    if ← s.hasMessageKeys theirEphemeral counter then
      s.removeMessageKeys theirEphemeral counter
    else .error .duplicateMessage
  else if (counter : Int) - chainKey.index > MAX_FUTURE then .error .invalidMessage
  else do
    let r ← skipLoop theirEphemeral (counter - chainKey.index) s chainKey
    let s ← r.1.setReceiverChainKey theirEphemeral r.2.getNextChainKey
    .ok (r.2.getMessageKeys, s)

/-- axolotl/sessioncipher.py:125-147 -/
def decryptWithSessionState (s : SessionState) (m : WhisperMessage) (seed : Bytes) :
    Res (Bytes × SessionState) :=
  if !s.hasSenderChain then .error .invalidMessage
  else if m.messageVersion ≠ s.getSessionVersion then .error .invalidMessage
  else do
    let r ← getOrCreateChainKey s m.senderRatchetKey seed
    let r ← getOrCreateMessageKeys r.2 m.senderRatchetKey r.1 m.counter
    let messageKeys := r.1
    let s := r.2
    let remoteId ← s.getRemoteIdentityKey
    let localId ← s.getLocalIdentityKey
    m.verifyMac m.messageVersion remoteId localId messageKeys.macKey
    let plaintext ← AES.decrypt messageKeys.cipherKey messageKeys.iv m.ciphertext
    .ok (plaintext, s.clearUnacknowledgedPreKeyMessage)

/-- The `for` loop of axolotl/sessioncipher.py:112-121 from position `i`; `rest` is
`previousStates[i:]`, `seeds i` the randomness of the attempt on `previousStates[i]`.
Only `InvalidMessageException` moves on to the next state. -/
def tryPrevious (r : SessionRecord) (m : WhisperMessage) (seeds : Nat → Bytes) :
    List SessionState → Nat → Res (Bytes × SessionRecord)
  | [], _ => .error .invalidMessage
  | p :: rest, i =>
    match decryptWithSessionState p m (seeds i) with
    | .ok (pt, s) =>
      .ok (pt, { r with previousStates := r.previousStates.eraseIdx i }.promoteState s)
    | .error .invalidMessage => tryPrevious r m seeds rest (i + 1)
    | .error e => .error e

/-- axolotl/sessioncipher.py:96-123; `seed` is the randomness of the attempt on the current state. -/
def decryptWithSessionRecord (r : SessionRecord) (m : WhisperMessage) (seed : Bytes)
    (seeds : Nat → Bytes) : Res (Bytes × SessionRecord) :=
  match decryptWithSessionState r.sessionState m seed with
  | .ok (pt, s) => .ok (pt, r.setState s)
  | .error .invalidMessage => tryPrevious r m seeds r.previousStates 0
  | .error e => .error e

/-- axolotl/sessioncipher.py:63-78 -/
def decryptMsg (w : World) (addr : Address) (m : WhisperMessage) (seed : Bytes) (seeds : Nat → Bytes) :
    Outcome Bytes :=
  Outcome.ofRes
    (if !w.containsSession addr then .error .noSession
     else do
      let r ← decryptWithSessionRecord (w.loadSession addr) m seed seeds
      .ok ([.session addr r.2], r.1))

end SessionCipher

namespace SessionBuilder

/-- axolotl/sessionbuilder.py:75-76,119-120,174-175,215-216: archive unless the record is fresh -/
def archiveUnlessFresh (r : SessionRecord) : SessionRecord := if !r.fresh then r.archiveCurrentState else r

/-- axolotl/sessionbuilder.py:50-86.  Returns the changed record and `unsignedPreKeyId`. -/
def processV3 (w : World) (r : SessionRecord) (m : PreKeyWhisperMessage) :
    Res (SessionRecord × Option Nat) :=
  if r.hasSessionState m.version (Curve.serializePoint m.baseKey) then .ok (r, none)
  else do
    let spk ← w.loadSignedPreKey m.signedPreKeyId
    let ourSignedPreKey ← SignedPreKeyRecord.getKeyPair spk
    let oneTime ← match m.preKeyId with
      | none => .ok none
      | some id => do
        let pk ← w.loadPreKey id
        let kp ← PreKeyRecord.getKeyPair pk
        Except.ok (some kp)
    let r := archiveUnlessFresh r
    let s ← RatchetingSession.initializeSessionAsBob r.sessionState
      { theirBaseKey := m.baseKey, theirIdentityKey := m.identityKey,
        ourIdentityKey := w.identityKeyPair, ourSignedPreKey := ourSignedPreKey,
        ourRatchetKey := ourSignedPreKey, ourOneTimePreKey := oneTime }
    let s ← s.setLocalRegistrationId w.registrationId
    let s ← s.setRemoteRegistrationId m.registrationId
    let s := s.setAliceBaseKey (Curve.serializePoint m.baseKey)
    let unsigned := match m.preKeyId with
      | none => none
      | some id => if id ≠ Medium.MAX_VALUE then some id else none
    .ok (r.setState s, unsigned)

/-- axolotl/sessionbuilder.py:32-48.  On success `saveIdentity` has been called. -/
def process (w : World) (addr : Address) (r : SessionRecord) (m : PreKeyWhisperMessage) :
    Outcome (SessionRecord × Option Nat) :=
  if !w.isTrusted addr.1 m.identityKey then ⟨[], .error .untrustedIdentity⟩
  else match processV3 w r m with
    | .error e => ⟨[], .error e⟩
    | .ok x => ⟨[.identity addr.1 m.identityKey], .ok x⟩

/-- axolotl/sessionbuilder.py:88-131; `baseSeed` and `ratchetSeed` are the randomness of `ourBaseKey`
and of Alice's sending ratchet key. -/
def processPreKeyBundle (w : World) (addr : Address) (b : PreKeyBundle) (baseSeed ratchetSeed : Bytes) :
    Outcome Unit :=
  Outcome.ofRes
    (if !w.isTrusted addr.1 b.identityKey then .error .untrustedIdentity
     else match b.signedPreKey with
      | none => .error .invalidKey
      | some theirSignedPreKey => do
        let ok ← Curve.verifySignature b.identityKey (Curve.serializePoint theirSignedPreKey)
          b.signedPreKeySignature
        if !ok then .error .invalidKey
        else do
          let r := w.loadSession addr
          let ourBaseKey := Curve.generateKeyPair baseSeed
          let theirOneTimePreKeyId := b.preKey.map fun _ => b.preKeyId
          let r := archiveUnlessFresh r
          let s ← RatchetingSession.initializeSessionAsAlice r.sessionState
            { ourBaseKey := ourBaseKey, ourIdentityKey := w.identityKeyPair,
              theirIdentityKey := b.identityKey, theirSignedPreKey := theirSignedPreKey,
              theirRatchetKey := theirSignedPreKey, theirOneTimePreKey := b.preKey } ratchetSeed
          let s ← s.setUnacknowledgedPreKeyMessage theirOneTimePreKeyId b.signedPreKeyId ourBaseKey.pub
          let s ← s.setLocalRegistrationId w.registrationId
          let s ← s.setRemoteRegistrationId b.registrationId
          let s := s.setAliceBaseKey (Curve.serializePoint ourBaseKey.pub)
          .ok ([.session addr (r.setState s), .identity addr.1 b.identityKey], ()))

/-- Randomness of `processInitiate`: two key pairs, the sending ratchet key, the signature. -/
structure InitiateRand where
  baseSeed : Bytes
  ratchetSeed : Bytes
  sendSeed : Bytes
  sigRand : Bytes

/-- axolotl/sessionbuilder.py:147-180: everything up to and including the store calls; returns the
stored record, the flags and our three key pairs. -/
def processInitiateState (w : World) (addr : Address) (m : KeyExchangeMessage) (rnd : InitiateRand) :
    Res (SessionRecord × Nat × SymmetricParameters) := do
  let r := w.loadSession addr
  let ok ← Curve.verifySignature m.identityKey (Curve.serializePoint m.baseKey) m.baseKeySignature
  if !ok then .error .invalidKey
  else do
    let st := r.sessionState
    let (flags, ourIdentityKey, ourBaseKey, ourRatchetKey) ←
      if !st.hasPendingKeyExchange then
        .ok (KeyExchangeMessage.RESPONSE_FLAG, w.identityKeyPair, Curve.generateKeyPair rnd.baseSeed,
          Curve.generateKeyPair rnd.ratchetSeed)
      else do
        let ik ← st.getPendingKeyExchangeIdentityKey
        let bk ← st.getPendingKeyExchangeBaseKey
        let rk ← st.getPendingKeyExchangeRatchetKey
        Except.ok (KeyExchangeMessage.RESPONSE_FLAG ||| KeyExchangeMessage.SIMULTAENOUS_INITIATE_FLAG,
          ik, bk, rk)
    let p : SymmetricParameters :=
      { ourIdentityKey := ourIdentityKey, ourBaseKey := ourBaseKey, ourRatchetKey := ourRatchetKey,
        theirBaseKey := m.baseKey, theirRatchetKey := m.ratchetKey, theirIdentityKey := m.identityKey }
    let r := archiveUnlessFresh r
    let s ← RatchetingSession.initializeSession r.sessionState p rnd.sendSeed
    .ok (r.setState s, flags, p)

/-- axolotl/sessionbuilder.py:147-189.  The signature and the response are computed after the stores
were written. -/
def processInitiate (w : World) (addr : Address) (m : KeyExchangeMessage) (rnd : InitiateRand) :
    Outcome (Option KeyExchangeMessage) :=
  match processInitiateState w addr m rnd with
  | .error e => ⟨[], .error e⟩
  | .ok (r, flags, p) =>
    ⟨[.session addr r, .identity addr.1 m.identityKey], do
      let sig ← Curve.calculateSignature rnd.sigRand p.ourIdentityKey.priv
        (Curve.serializePoint p.ourBaseKey.pub)
      let resp ← KeyExchangeMessage.create r.sessionState.getSessionVersion m.sequence flags
        p.ourBaseKey.pub sig p.ourRatchetKey.pub p.ourIdentityKey.pub
      .ok (some resp)⟩

/-- axolotl/sessionbuilder.py:191-227; `sendSeed` is the randomness of the sending ratchet key. -/
def processResponse (w : World) (addr : Address) (m : KeyExchangeMessage) (sendSeed : Bytes) :
    Outcome (Option KeyExchangeMessage) :=
  let r := w.loadSession addr
  let st := r.sessionState
  if !st.hasPendingKeyExchange || st.getPendingKeyExchangeSequence != m.sequence then
    if !m.isResponseForSimultaneousInitiate then ⟨[], .error .staleKeyExchange⟩ else ⟨[], .ok none⟩
  else Outcome.ofRes do
    let bk ← st.getPendingKeyExchangeBaseKey
    let rk ← st.getPendingKeyExchangeRatchetKey
    let ik ← st.getPendingKeyExchangeIdentityKey
    let r := archiveUnlessFresh r
    let s ← RatchetingSession.initializeSession r.sessionState
      { ourBaseKey := bk, ourRatchetKey := rk, ourIdentityKey := ik, theirBaseKey := m.baseKey,
        theirRatchetKey := m.ratchetKey, theirIdentityKey := m.identityKey } sendSeed
    let ok ← Curve.verifySignature m.identityKey (Curve.serializePoint m.baseKey) m.baseKeySignature
    if !ok then .error .invalidKey
    else .ok ([.session addr (r.setState s), .identity addr.1 m.identityKey], none)

/-- axolotl/sessionbuilder.py:133-145 -/
def processKeyExchangeMessage (w : World) (addr : Address) (m : KeyExchangeMessage)
    (rnd : InitiateRand) : Outcome (Option KeyExchangeMessage) :=
  if !w.isTrusted addr.1 m.identityKey then ⟨[], .error .untrustedIdentity⟩
  else if m.isInitiate then processInitiate w addr m rnd
  else processResponse w addr m rnd.sendSeed

/-- axolotl/sessionbuilder.py:229-245; `rnd` is what `getRandomSequence(65534)` returned. -/
def processInitKeyExchangeMessage (w : World) (addr : Address) (rnd : Nat)
    (baseSeed ratchetSeed sigRand : Bytes) : Outcome KeyExchangeMessage :=
  let sequence := rnd + 1
  let baseKey := Curve.generateKeyPair baseSeed
  let ratchetKey := Curve.generateKeyPair ratchetSeed
  let identityKey := w.identityKeyPair
  match (do
    let sig ← Curve.calculateSignature sigRand identityKey.priv (Curve.serializePoint baseKey.pub)
    let r := w.loadSession addr
    let s ← r.sessionState.setPendingKeyExchange sequence baseKey ratchetKey identityKey
    Except.ok (sig, r.setState s) : Res (Bytes × SessionRecord)) with
  | .error e => ⟨[], .error e⟩
  | .ok (sig, r) =>
    ⟨[.session addr r],
     KeyExchangeMessage.create CiphertextMessage.CURRENT_VERSION sequence
       KeyExchangeMessage.INITIATE_FLAG baseKey.pub sig ratchetKey.pub identityKey.pub⟩

end SessionBuilder

namespace SessionCipher

/-- axolotl/sessioncipher.py:80-94.  Order of effects: `saveIdentity` (inside `process`), then
`storeSession`, then `removePreKey`. -/
def decryptPkmsg (w : World) (addr : Address) (m : PreKeyWhisperMessage) (seed : Bytes)
    (seeds : Nat → Bytes) : Outcome Bytes :=
  let o := SessionBuilder.process w addr (w.loadSession addr) m
  match o.result with
  | .error e => ⟨o.writes, .error e⟩
  | .ok (r, unsignedPreKeyId) =>
    match decryptWithSessionRecord r m.message seed seeds with
    | .error e => ⟨o.writes, .error e⟩
    | .ok (pt, r') =>
      ⟨o.writes ++ [.session addr r'] ++ (unsignedPreKeyId.map Write.removePreKey).toList, .ok pt⟩

end SessionCipher
end Axolotl
