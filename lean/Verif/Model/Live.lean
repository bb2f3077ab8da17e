import Verif.Spec.History
import Verif.Spec.Group

/-!
# Stores that hand out the object they keep

The stores under axolotl/tests serialise a record when it is stored or loaded, so every call works on a copy of its own.  The
interfaces in axolotl/state/sessionstore.py and axolotl/groups/state/senderkeystore.py do not ask for this.  Here the calls are
modelled again for a store that keeps the record object itself and returns the same object when it is loaded: then every
assignment the library makes to a loaded record is seen in the store at once, also if the call raises an exception afterwards,
and the attribute `fresh` of the object survives.

A method that assigns to an object is a function from its contents to the result and the new contents; an exception keeps
what was assigned before.
-/

namespace Axolotl
variable [Crypto]

/-- Computations that assign to an object and may raise. -/
def Obj (σ α : Type) : Type := σ → Res α × σ

namespace Obj
variable {σ α β : Type}

def pure (a : α) : Obj σ α := fun s => (.ok a, s)
def bind (x : Obj σ α) (f : α → Obj σ β) : Obj σ β := fun s =>
  match x s with
  | (.ok a, s') => f a s'
  | (.error e, s') => (.error e, s')

instance : Monad (Obj σ) where
  pure := Obj.pure
  bind := Obj.bind

/-- A computation that assigns nothing. -/
def lift (r : Res α) : Obj σ α := fun s => (r, s)
def get : Obj σ σ := fun s => (.ok s, s)
def modify (f : σ → σ) : Obj σ Unit := fun s => (.ok (), f s)

end Obj

/-! ## Sessions -/

/-- During a call: the stores other than the record in use, whether the session store has the record object, and the contents
of the record object. -/
structure InUse where
  world : World
  kept : Bool
  obj : SessionRecord

namespace InUse

/-- The current session state of the record. -/
def state : Obj InUse SessionState := fun l => (.ok l.obj.sessionState, l)

/-- Assign to fields of the current session state of the record. -/
def assign (f : SessionState → SessionState) : Obj InUse Unit :=
  Obj.modify fun l => { l with obj := l.obj.setState (f l.obj.sessionState) }

/-- axolotl/state/sessionstate.py:100-111: the new chain is built apart, then appended. -/
def addReceiverChain (key : ECPub) (chainKey : ChainKey) : Obj InUse Unit := do
  let s ← state
  let s' ← Obj.lift (s.addReceiverChain key chainKey)
  assign fun _ => s'

/-- Assign to fields of the sender chain; assigning to a field of an absent sub-message creates it. -/
def assignChain (f : ChainS → ChainS) : Obj InUse Unit :=
  assign fun s => { s with senderChain := some (f s.senderChainD) }

/-- axolotl/state/sessionstate.py:121-122, 132-133: the key, then the index, which is checked -/
def assignChainKey (k : ChainKey) : Obj InUse Unit := do
  assignChain fun c => { c with chainKey := some { c.chainKey.getD {} with key := some k.key } }
  let i ← Obj.lift (chkU32 k.index)
  assignChain fun c => { c with chainKey := some { c.chainKey.getD {} with index := some i } }

/-- axolotl/state/sessionstate.py:113-122 -/
def setSenderChain (kp : KeyPair) (k : ChainKey) : Obj InUse Unit := do
  assignChain fun c => { c with senderRatchetKey := some (Curve.serializePoint kp.pub) }
  assignChain fun c => { c with senderRatchetKeyPrivate := some kp.priv }
  assignChainKey k

/-- axolotl/state/sessionstate.py:234-244 -/
def setUnacknowledgedPreKeyMessage (preKeyId : Option Int) (signedPreKeyId : Int) (baseKey : ECPub) : Obj InUse Unit := do
  let spk ← Obj.lift (chkI32 signedPreKeyId)
  assign fun s => { s with pendingPreKey := some { s.pendingPreKey.getD {} with signedPreKeyId := some spk } }
  assign fun s => { s with pendingPreKey := some { s.pendingPreKey.getD {} with baseKey := some (Curve.serializePoint baseKey) } }
  match preKeyId with
  | none => Obj.pure ()
  | some i => do
    let i ← Obj.lift (chkU32 i)
    assign fun s => { s with pendingPreKey := some { s.pendingPreKey.getD {} with preKeyId := some i } }

/-- axolotl/state/sessionstate.py:267-268 -/
def setLocalRegistrationId (i : Int) : Obj InUse Unit := do
  let i ← Obj.lift (chkU32 i)
  assign fun s => { s with localRegistrationId := some i }

/-- axolotl/state/sessionstate.py:261-262 -/
def setRemoteRegistrationId (i : Int) : Obj InUse Unit := do
  let i ← Obj.lift (chkU32 i)
  assign fun s => { s with remoteRegistrationId := some i }

/-- axolotl/ratchet/ratchetingsession.py:39-70 -/
def initializeSessionAsAlice (p : AliceParameters) (seed : Bytes) : Obj InUse Unit := do
  assign fun s => s.setSessionVersion CiphertextMessage.CURRENT_VERSION
  assign fun s => s.setRemoteIdentityKey p.theirIdentityKey
  assign fun s => s.setLocalIdentityKey p.ourIdentityKey.pub
  let sendingRatchetKey := Curve.generateKeyPair seed
  let secrets ← Obj.lift (RatchetingSession.aliceSecrets p)
  let derivedKeys := RatchetingSession.calculateDerivedKeys secrets
  let sendingChain ← Obj.lift (derivedKeys.1.createChain p.theirRatchetKey sendingRatchetKey)
  addReceiverChain p.theirRatchetKey derivedKeys.2
  setSenderChain sendingRatchetKey sendingChain.2
  assign fun s => s.setRootKey sendingChain.1

/-- axolotl/ratchet/ratchetingsession.py:72-100 -/
def initializeSessionAsBob (p : BobParameters) : Obj InUse Unit := do
  assign fun s => s.setSessionVersion CiphertextMessage.CURRENT_VERSION
  assign fun s => s.setRemoteIdentityKey p.theirIdentityKey
  assign fun s => s.setLocalIdentityKey p.ourIdentityKey.pub
  let secrets ← Obj.lift (RatchetingSession.bobSecrets p)
  let derivedKeys := RatchetingSession.calculateDerivedKeys secrets
  setSenderChain p.ourRatchetKey derivedKeys.2
  assign fun s => s.setRootKey derivedKeys.1

/-- axolotl/ratchet/ratchetingsession.py:14-37 -/
def initializeSession (p : SymmetricParameters) (seed : Bytes) : Obj InUse Unit := do
  if ← Obj.lift (RatchetingSession.isAlice p.ourBaseKey.pub p.theirBaseKey) then
    initializeSessionAsAlice
      { ourBaseKey := p.ourBaseKey, ourIdentityKey := p.ourIdentityKey,
        theirRatchetKey := p.theirRatchetKey, theirIdentityKey := p.theirIdentityKey,
        theirSignedPreKey := p.theirBaseKey, theirOneTimePreKey := none } seed
  else
    initializeSessionAsBob
      { ourIdentityKey := p.ourIdentityKey, ourRatchetKey := p.ourRatchetKey,
        ourSignedPreKey := p.ourBaseKey, ourOneTimePreKey := none,
        theirBaseKey := p.theirBaseKey, theirIdentityKey := p.theirIdentityKey }

/-- axolotl/sessionbuilder.py:75-76,119-120,174-175,215-216 -/
def archiveUnlessFresh : Obj InUse Unit :=
  Obj.modify fun l => { l with obj := SessionBuilder.archiveUnlessFresh l.obj }

/-- `sessionStore.storeSession(..., sessionRecord)`: the store has the object from now on. -/
def storeSession : Obj InUse Unit := Obj.modify fun l => { l with kept := true }

/-- `identityKeyStore.saveIdentity` -/
def saveIdentity (name : String) (key : ECPub) : Obj InUse Unit :=
  Obj.modify fun l => { l with world := l.world.apply (.identity name key) }

/-- `preKeyStore.removePreKey` -/
def removePreKey (id : Nat) : Obj InUse Unit :=
  Obj.modify fun l => { l with world := l.world.apply (.removePreKey id) }

/-- axolotl/sessioncipher.py:35-61 -/
def encrypt (paddedMessage : Bytes) : Obj InUse Ciphertext := do
  let s ← state
  let chainKey ← Obj.lift s.getSenderChainKey
  let messageKeys := chainKey.getMessageKeys
  let senderEphemeral ← Obj.lift s.getSenderRatchetKey
  let previousCounter := s.getPreviousCounter
  let sessionVersion := s.getSessionVersion
  let ciphertextBody ← Obj.lift (AES.encrypt messageKeys.cipherKey messageKeys.iv paddedMessage)
  let localId ← Obj.lift s.getLocalIdentityKey
  let remoteId ← Obj.lift s.getRemoteIdentityKey
  let m ← Obj.lift (WhisperMessage.create sessionVersion messageKeys.macKey senderEphemeral chainKey.index
    previousCounter ciphertextBody localId remoteId)
  let c ← Obj.lift (if s.hasUnacknowledgedPreKeyMessage then do
      let items ← s.getUnacknowledgedPreKeyMessageItems
      let pm ← PreKeyWhisperMessage.create sessionVersion s.getLocalRegistrationId items.preKeyId
        items.signedPreKeyId items.baseKey localId m
      Except.ok (Ciphertext.preKey pm)
    else .ok (Ciphertext.whisper m))
  assignChainKey chainKey.getNextChainKey
  storeSession
  Obj.pure c

/-- axolotl/sessioncipher.py:96-123.  The attempts are made on copies of the states (`SessionState(...)`); the record is
assigned to when one has succeeded. -/
def decryptWithSessionRecord (m : WhisperMessage) (seed : Bytes) (seeds : Nat → Bytes) : Obj InUse Bytes := do
  let l ← Obj.get
  let r ← Obj.lift (SessionCipher.decryptWithSessionRecord l.obj m seed seeds)
  Obj.modify fun l => { l with obj := r.2 }
  Obj.pure r.1

/-- axolotl/sessioncipher.py:70-78; the record object is in the store or not. -/
def decryptMsg (m : WhisperMessage) (seed : Bytes) (seeds : Nat → Bytes) : Obj InUse Bytes := do
  let l ← Obj.get
  if !l.kept then Obj.lift (.error .noSession)
  else do
    let pt ← decryptWithSessionRecord m seed seeds
    storeSession
    Obj.pure pt

/-- axolotl/sessionbuilder.py:50-86 -/
def processV3 (m : PreKeyWhisperMessage) : Obj InUse (Option Nat) := do
  let l ← Obj.get
  if l.obj.hasSessionState m.version (Curve.serializePoint m.baseKey) then Obj.pure none
  else do
    let spk ← Obj.lift (l.world.loadSignedPreKey m.signedPreKeyId)
    let ourSignedPreKey ← Obj.lift (SignedPreKeyRecord.getKeyPair spk)
    let oneTime ← Obj.lift (match m.preKeyId with
      | none => .ok none
      | some id => do
        let pk ← l.world.loadPreKey id
        let kp ← PreKeyRecord.getKeyPair pk
        Except.ok (some kp))
    archiveUnlessFresh
    initializeSessionAsBob
      { theirBaseKey := m.baseKey, theirIdentityKey := m.identityKey,
        ourIdentityKey := l.world.identityKeyPair, ourSignedPreKey := ourSignedPreKey,
        ourRatchetKey := ourSignedPreKey, ourOneTimePreKey := oneTime }
    setLocalRegistrationId l.world.registrationId
    setRemoteRegistrationId m.registrationId
    assign fun s => s.setAliceBaseKey (Curve.serializePoint m.baseKey)
    Obj.pure (match m.preKeyId with
      | none => none
      | some id => if id ≠ Medium.MAX_VALUE then some id else none)

/-- axolotl/sessionbuilder.py:32-48 -/
def process (addr : Address) (m : PreKeyWhisperMessage) : Obj InUse (Option Nat) := do
  let l ← Obj.get
  if !l.world.isTrusted addr.1 m.identityKey then Obj.lift (.error .untrustedIdentity)
  else do
    let unsigned ← processV3 m
    saveIdentity addr.1 m.identityKey
    Obj.pure unsigned

/-- axolotl/sessioncipher.py:80-94 -/
def decryptPkmsg (addr : Address) (m : PreKeyWhisperMessage) (seed : Bytes) (seeds : Nat → Bytes) : Obj InUse Bytes := do
  let unsigned ← process addr m
  let pt ← decryptWithSessionRecord m.message seed seeds
  storeSession
  match unsigned with
  | none => Obj.pure pt
  | some id => do
    removePreKey id
    Obj.pure pt

/-- axolotl/sessionbuilder.py:88-131.  The record is loaded once the bundle has been checked. -/
def processPreKeyBundle (addr : Address) (b : PreKeyBundle) (baseSeed ratchetSeed : Bytes) : Obj InUse Unit := do
  let l ← Obj.get
  if !l.world.isTrusted addr.1 b.identityKey then Obj.lift (.error .untrustedIdentity)
  else match b.signedPreKey with
    | none => Obj.lift (.error .invalidKey)
    | some theirSignedPreKey => do
      let ok ← Obj.lift (Curve.verifySignature b.identityKey (Curve.serializePoint theirSignedPreKey)
        b.signedPreKeySignature)
      if !ok then Obj.lift (.error .invalidKey)
      else do
        let ourBaseKey := Curve.generateKeyPair baseSeed
        archiveUnlessFresh
        initializeSessionAsAlice
          { ourBaseKey := ourBaseKey, ourIdentityKey := l.world.identityKeyPair,
            theirIdentityKey := b.identityKey, theirSignedPreKey := theirSignedPreKey,
            theirRatchetKey := theirSignedPreKey, theirOneTimePreKey := b.preKey } ratchetSeed
        setUnacknowledgedPreKeyMessage (b.preKey.map fun _ => b.preKeyId) b.signedPreKeyId ourBaseKey.pub
        setLocalRegistrationId l.world.registrationId
        setRemoteRegistrationId b.registrationId
        assign fun s => s.setAliceBaseKey (Curve.serializePoint ourBaseKey.pub)
        storeSession
        saveIdentity addr.1 b.identityKey

/-- axolotl/sessionbuilder.py:147-189 -/
def processInitiate (addr : Address) (m : KeyExchangeMessage) (rnd : SessionBuilder.InitiateRand) :
    Obj InUse (Option KeyExchangeMessage) := do
  let l ← Obj.get
  let ok ← Obj.lift (Curve.verifySignature m.identityKey (Curve.serializePoint m.baseKey) m.baseKeySignature)
  if !ok then Obj.lift (.error .invalidKey)
  else do
    let st := l.obj.sessionState
    let (flags, ourIdentityKey, ourBaseKey, ourRatchetKey) ← Obj.lift (
      if !st.hasPendingKeyExchange then
        .ok (KeyExchangeMessage.RESPONSE_FLAG, l.world.identityKeyPair, Curve.generateKeyPair rnd.baseSeed,
          Curve.generateKeyPair rnd.ratchetSeed)
      else do
        let ik ← st.getPendingKeyExchangeIdentityKey
        let bk ← st.getPendingKeyExchangeBaseKey
        let rk ← st.getPendingKeyExchangeRatchetKey
        Except.ok (KeyExchangeMessage.RESPONSE_FLAG ||| KeyExchangeMessage.SIMULTAENOUS_INITIATE_FLAG,
          ik, bk, rk))
    let p : SymmetricParameters :=
      { ourIdentityKey := ourIdentityKey, ourBaseKey := ourBaseKey, ourRatchetKey := ourRatchetKey,
        theirBaseKey := m.baseKey, theirRatchetKey := m.ratchetKey, theirIdentityKey := m.identityKey }
    archiveUnlessFresh
    initializeSession p rnd.sendSeed
    storeSession
    saveIdentity addr.1 m.identityKey
    let sig ← Obj.lift (Curve.calculateSignature rnd.sigRand p.ourIdentityKey.priv (Curve.serializePoint p.ourBaseKey.pub))
    let s ← state
    let resp ← Obj.lift (KeyExchangeMessage.create s.getSessionVersion m.sequence flags
      p.ourBaseKey.pub sig p.ourRatchetKey.pub p.ourIdentityKey.pub)
    Obj.pure (some resp)

/-- axolotl/sessionbuilder.py:191-227: the session is set up before the signature is checked. -/
def processResponse (addr : Address) (m : KeyExchangeMessage) (sendSeed : Bytes) : Obj InUse (Option KeyExchangeMessage) := do
  let st ← state
  if !st.hasPendingKeyExchange || st.getPendingKeyExchangeSequence != m.sequence then
    if !m.isResponseForSimultaneousInitiate then Obj.lift (.error .staleKeyExchange) else Obj.pure none
  else do
    let bk ← Obj.lift st.getPendingKeyExchangeBaseKey
    let rk ← Obj.lift st.getPendingKeyExchangeRatchetKey
    let ik ← Obj.lift st.getPendingKeyExchangeIdentityKey
    archiveUnlessFresh
    initializeSession
      { ourBaseKey := bk, ourRatchetKey := rk, ourIdentityKey := ik, theirBaseKey := m.baseKey,
        theirRatchetKey := m.ratchetKey, theirIdentityKey := m.identityKey } sendSeed
    let ok ← Obj.lift (Curve.verifySignature m.identityKey (Curve.serializePoint m.baseKey) m.baseKeySignature)
    if !ok then Obj.lift (.error .invalidKey)
    else do
      storeSession
      saveIdentity addr.1 m.identityKey
      Obj.pure none

/-- axolotl/sessionbuilder.py:133-145 -/
def processKeyExchangeMessage (addr : Address) (m : KeyExchangeMessage) (rnd : SessionBuilder.InitiateRand) :
    Obj InUse (Option KeyExchangeMessage) := do
  let l ← Obj.get
  if !l.world.isTrusted addr.1 m.identityKey then Obj.lift (.error .untrustedIdentity)
  else if m.isInitiate then processInitiate addr m rnd
  else processResponse addr m rnd.sendSeed

/-- axolotl/sessionbuilder.py:229-245; the structure of the pending exchange is built apart, then merged. -/
def processInitKeyExchangeMessage (rnd : Nat) (baseSeed ratchetSeed sigRand : Bytes) : Obj InUse KeyExchangeMessage := do
  let l ← Obj.get
  let sequence := rnd + 1
  let baseKey := Curve.generateKeyPair baseSeed
  let ratchetKey := Curve.generateKeyPair ratchetSeed
  let identityKey := l.world.identityKeyPair
  let sig ← Obj.lift (Curve.calculateSignature sigRand identityKey.priv (Curve.serializePoint baseKey.pub))
  let s' ← Obj.lift (l.obj.sessionState.setPendingKeyExchange sequence baseKey ratchetKey identityKey)
  assign fun _ => s'
  storeSession
  Obj.lift (KeyExchangeMessage.create CiphertextMessage.CURRENT_VERSION sequence
    KeyExchangeMessage.INITIATE_FLAG baseKey.pub sig ratchetKey.pub identityKey.pub)

/-- The record object a call works on: the one in the store, or a new one that the store does not have. -/
def load (w : World) (a : Address) : InUse := ⟨w, (w.sessions a).isSome, (w.sessions a).getD {}⟩

/-- The stores when the call has ended, in whichever way. -/
def finish (l : InUse) (a : Address) : World :=
  { l.world with sessions := if l.kept then upd l.world.sessions a (some l.obj) else l.world.sessions }

end InUse

/-- Give the result another type. -/
def Obj.map {σ α β : Type} (f : α → β) (x : Obj σ α) : Obj σ β := Obj.bind x fun a => Obj.pure (f a)

namespace Call

/-- The call, on the record object. -/
def live : Call → Obj InUse Reply
  | .encrypt _ p => (InUse.encrypt p).map .ciphertext
  | .decryptMsg _ m s ss => (InUse.decryptMsg m s ss).map .plaintext
  | .decryptPkmsg a m s ss => (InUse.decryptPkmsg a m s ss).map .plaintext
  | .processBundle a b s1 s2 => (InUse.processPreKeyBundle a b s1 s2).map fun _ => .done
  | .processKeyExchange a m r => (InUse.processKeyExchangeMessage a m r).map .keyExchange
  | .initKeyExchange _ n s1 s2 s3 => (InUse.processInitKeyExchangeMessage n s1 s2 s3).map fun m => .keyExchange (some m)

/-- Run one call on stores that keep objects: the result, and the stores afterwards. -/
def runLive (w : World) (c : Call) : Res Reply × World :=
  let r := c.live (InUse.load w c.addr)
  (r.1, r.2.finish c.addr)

/-- The stores after a history. -/
def afterLive (w : World) (cs : List Call) : World := cs.foldl (fun w c => (c.runLive w).2) w

/-- The replies of a history, in order. -/
def repliesLive : World → List Call → List (Res Reply)
  | _, [] => []
  | w, c :: cs => (c.runLive w).1 :: repliesLive (c.runLive w).2 cs

end Call

/-! ## Groups -/

namespace LiveGroup

/-- The `while` loop of axolotl/groups/groupcipher.py:78-80 -/
def skipLoop : Nat → SenderChainKey → Obj SenderKeyState SenderChainKey
  | 0, c => Obj.pure c
  | k + 1, c => do
    let s ← Obj.get
    let s' ← Obj.lift (SenderKeyState.addSenderMessageKey s c.getSenderMessageKey)
    Obj.modify fun _ => s'
    skipLoop k c.getNext

/-- axolotl/groups/state/senderkeystate.py:56-58: the iteration, which is checked, then the seed -/
def setSenderChainKey (c : SenderChainKey) : Obj SenderKeyState Unit := do
  let s ← Obj.get
  let s' ← Obj.lift (SenderKeyState.setSenderChainKey s c)
  Obj.modify fun _ => s'

/-- axolotl/groups/groupcipher.py:65-83 -/
def getSenderKey (iteration : Nat) : Obj SenderKeyState SenderMessageKey := do
  let s ← Obj.get
  let c := SenderKeyState.getSenderChainKey s
  if c.iteration > iteration then
    if SenderKeyState.hasSenderMessageKey s iteration then
      match SenderKeyState.removeSenderMessageKey s iteration with
      | (some k, s') => do
        Obj.modify fun _ => s'
        Obj.pure k
      | (none, _) => Obj.lift (.error .typeError)
    else Obj.lift (.error .duplicateMessage)
  else if (c.iteration : Int) - iteration > 2000 then Obj.lift (.error .invalidMessage)
  else do
    let c ← skipLoop (iteration - c.iteration) c
    setSenderChainKey c.getNext
    Obj.pure c.getSenderMessageKey

/-- Run a computation on the state at position `i` of the record. -/
def atState {α : Type} (i : Nat) (s : SenderKeyState) (x : Obj SenderKeyState α) : Obj SenderKeyRecord α := fun r =>
  let y := x s
  (y.1, r.replace i y.2)

/-- axolotl/groups/groupcipher.py:26-35 -/
def encrypt (paddedPlaintext : Bytes) (rand : Bytes) : Obj SenderKeyRecord Bytes := do
  let record ← Obj.get
  let st ← Obj.lift record.getFirstState
  let senderKey := (SenderKeyState.getSenderChainKey st).getSenderMessageKey
  let ciphertext ← Obj.lift (AES.encrypt senderKey.cipherKey senderKey.iv paddedPlaintext)
  let m ← Obj.lift (SenderKeyMessage.create (SenderKeyState.getKeyId st) senderKey.iteration ciphertext
    (SenderKeyState.getSigningKeyPrivate st) rand)
  atState 0 st (setSenderChainKey (SenderKeyState.getSenderChainKey st).getNext)
  Obj.pure m.serialized

/-- axolotl/groups/groupcipher.py:48-57 -/
def decrypt (bytes : Bytes) : Obj SenderKeyRecord Bytes := do
  let record ← Obj.get
  if record.isEmpty then Obj.lift (.error .noSession)
  else do
    let m ← Obj.lift (SenderKeyMessage.parse bytes)
    let st ← Obj.lift (record.getStateById m.keyId)
    let pub ← Obj.lift (SenderKeyState.getSigningKeyPublic st.1)
    Obj.lift (m.verifySignature pub)
    let k ← atState st.2 st.1 (getSenderKey m.iteration)
    Obj.lift (GroupCipher.getPlainText k.iv k.cipherKey m.ciphertext)

end LiveGroup

namespace GroupCall

/-- Run one call on a store that keeps objects: the result, and the contents of the record object afterwards.  An object that
the store does not have is empty and stays so until it is stored, so no flag is needed: a missing entry reads as empty. -/
def runLive (g : GroupStore) : GroupCall → Res GroupReply × GroupStore
  | .encrypt n pt rand =>
    let r := LiveGroup.encrypt pt rand (g n)
    ((GroupCipher.wrapNoSession r.1).map .bytes, g.store n r.2)
  | .decrypt n b =>
    let r := LiveGroup.decrypt b (g n)
    ((GroupCipher.wrapInvalid r.1).map .bytes, g.store n r.2)
  | .process n m =>
    let o := GroupSessionBuilder.process g n m
    (o.result.map fun _ => .done, o.final g n)
  | .create n rnd =>
    let o := GroupSessionBuilder.create g n rnd
    (o.result.map .distribution, o.final g n)

/-- The store after a history. -/
def afterLive (g : GroupStore) (cs : List GroupCall) : GroupStore := cs.foldl (fun g c => (c.runLive g).2) g

/-- The replies of a history, in order. -/
def repliesLive : GroupStore → List GroupCall → List (Res GroupReply)
  | _, [] => []
  | g, c :: cs => (c.runLive g).1 :: repliesLive (c.runLive g).2 cs

end GroupCall
end Axolotl
