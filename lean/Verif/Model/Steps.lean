import Verif.Model.SessionCipher
import Verif.Model.Group

/-!
# The calls, one store access at a time

`Verif/Model/SessionCipher.lean` and `Verif/Model/Group.lean` give a call as a function of the stores it finds.  That is enough
for calls that run one after the other.  Here the same calls are written as programs, with every access to a store a step of its
own and in the order of the Python code, so that calls can be interleaved.  The computations between the accesses are those of the
other model; `Verif/Props/Interleave.lean` proves that a program running alone does what the function says.
-/

namespace Axolotl

/-- Stores as the library sees them: what can be asked and what can be changed. -/
structure Machine where
  State : Type
  Query : Type
  Answer : Query → Type
  answer : State → (q : Query) → Answer q
  Change : Type
  apply : State → Change → State

/-- A program: store accesses one after the other, then a value or an exception. -/
inductive Prog (M : Machine) (α : Type) where
  | done (r : Res α)
  | ask (q : M.Query) (k : M.Answer q → Prog M α)
  | change (x : M.Change) (k : Prog M α)

namespace Prog
variable {M : Machine} {α β : Type}

/-- `a; b`, with exceptions leaving at once. -/
def bind : Prog M α → (α → Prog M β) → Prog M β
  | .done (.ok a), f => f a
  | .done (.error e), _ => .done (.error e)
  | .ask q k, f => .ask q fun a => (k a).bind f
  | .change x k, f => .change x (k.bind f)

instance : Monad (Prog M) where
  pure a := .done (.ok a)
  bind := bind

/-- A computation that touches no store. -/
instance : MonadLift (Except Err) (Prog M) where
  monadLift r := .done r

def raise (e : Err) : Prog M α := .done (.error e)

/-- `try ... except`: go on with the value or the exception. -/
def outcome : Prog M α → Prog M (Res α)
  | .done r => .done (.ok r)
  | .ask q k => .ask q fun a => (k a).outcome
  | .change x k => .change x k.outcome

end Prog

section
variable [Crypto]

/-- The questions asked of the session, identity, prekey and signed prekey stores (axolotl/state/*store.py). -/
inductive StoreQuery where
  | containsSession (a : Address)
  | loadSession (a : Address)
  | isTrustedIdentity (name : String) (key : ECPub)
  | getIdentityKeyPair
  | getLocalRegistrationId
  | loadPreKey (id : Nat)
  | loadSignedPreKey (id : Nat)

/-- Their answers. -/
def StoreQuery.Answer : StoreQuery → Type
  | .containsSession _ => Bool
  | .loadSession _ => SessionRecord
  | .isTrustedIdentity .. => Bool
  | .getIdentityKeyPair => KeyPair
  | .getLocalRegistrationId => Int
  | .loadPreKey _ => Res PreKeyRecord
  | .loadSignedPreKey _ => Res SignedPreKeyRecord

/-- The stores of one party. -/
def Stores : Machine where
  State := World
  Query := StoreQuery
  Answer := StoreQuery.Answer
  answer w
    | .containsSession a => w.containsSession a
    | .loadSession a => w.loadSession a
    | .isTrustedIdentity n k => w.isTrusted n k
    | .getIdentityKeyPair => w.identityKeyPair
    | .getLocalRegistrationId => w.registrationId
    | .loadPreKey i => w.loadPreKey i
    | .loadSignedPreKey i => w.loadSignedPreKey i
  Change := Write
  apply := World.apply

namespace Steps

def containsSession (a : Address) : Prog Stores Bool := .ask (.containsSession a) fun b => .done (.ok b)
def loadSession (a : Address) : Prog Stores SessionRecord := .ask (.loadSession a) fun r => .done (.ok r)
def isTrustedIdentity (n : String) (k : ECPub) : Prog Stores Bool := .ask (.isTrustedIdentity n k) fun b => .done (.ok b)
def getIdentityKeyPair : Prog Stores KeyPair := .ask .getIdentityKeyPair fun k => .done (.ok k)
def getLocalRegistrationId : Prog Stores Int := .ask .getLocalRegistrationId fun i => .done (.ok i)
def loadPreKey (id : Nat) : Prog Stores PreKeyRecord := .ask (.loadPreKey id) .done
def loadSignedPreKey (id : Nat) : Prog Stores SignedPreKeyRecord := .ask (.loadSignedPreKey id) .done
def storeSession (a : Address) (r : SessionRecord) : Prog Stores Unit := .change (Write.session a r) (.done (.ok ()))
def saveIdentity (n : String) (k : ECPub) : Prog Stores Unit := .change (Write.identity n k) (.done (.ok ()))
def removePreKey (id : Nat) : Prog Stores Unit := .change (Write.removePreKey id) (.done (.ok ()))

/-- axolotl/sessioncipher.py:31-61: load at line 35, store at line 59 -/
def encrypt (addr : Address) (paddedMessage : Bytes) : Prog Stores Ciphertext := do
  let sessionRecord ← loadSession addr
  let r ← SessionCipher.encryptWithState sessionRecord.sessionState paddedMessage
  storeSession addr (sessionRecord.setState r.2)
  return r.1

/-- axolotl/sessioncipher.py:63-78: lines 70, 73, 76 -/
def decryptMsg (addr : Address) (m : WhisperMessage) (seed : Bytes) (seeds : Nat → Bytes) : Prog Stores Bytes := do
  if !(← containsSession addr) then Prog.raise .noSession
  else
    let sessionRecord ← loadSession addr
    let r ← SessionCipher.decryptWithSessionRecord sessionRecord m seed seeds
    storeSession addr r.2
    return r.1

/-- axolotl/sessionbuilder.py:50-86: lines 62, 66, 71, 79 -/
def processV3 (r : SessionRecord) (m : PreKeyWhisperMessage) : Prog Stores (SessionRecord × Option Nat) :=
  if r.hasSessionState m.version (Curve.serializePoint m.baseKey) then return (r, none)
  else do
    let spk ← loadSignedPreKey m.signedPreKeyId
    let ourSignedPreKey ← SignedPreKeyRecord.getKeyPair spk
    let ourIdentityKey ← getIdentityKeyPair
    let oneTime ← match m.preKeyId with
      | none => pure none
      | some id => do
        let pk ← loadPreKey id
        let kp ← PreKeyRecord.getKeyPair pk
        pure (some kp)
    let r := SessionBuilder.archiveUnlessFresh r
    let s ← RatchetingSession.initializeSessionAsBob r.sessionState
      { theirBaseKey := m.baseKey, theirIdentityKey := m.identityKey,
        ourIdentityKey := ourIdentityKey, ourSignedPreKey := ourSignedPreKey,
        ourRatchetKey := ourSignedPreKey, ourOneTimePreKey := oneTime }
    let registrationId ← getLocalRegistrationId
    let s ← s.setLocalRegistrationId registrationId
    let s ← s.setRemoteRegistrationId m.registrationId
    let s := s.setAliceBaseKey (Curve.serializePoint m.baseKey)
    let unsigned := match m.preKeyId with
      | none => none
      | some id => if id ≠ Medium.MAX_VALUE then some id else none
    return (r.setState s, unsigned)

/-- axolotl/sessionbuilder.py:32-48: lines 41, 46 -/
def process (addr : Address) (r : SessionRecord) (m : PreKeyWhisperMessage) : Prog Stores (SessionRecord × Option Nat) := do
  if !(← isTrustedIdentity addr.1 m.identityKey) then Prog.raise .untrustedIdentity
  else
    let x ← processV3 r m
    saveIdentity addr.1 m.identityKey
    return x

/-- axolotl/sessioncipher.py:80-94: lines 84, 85, 89, 92 -/
def decryptPkmsg (addr : Address) (m : PreKeyWhisperMessage) (seed : Bytes) (seeds : Nat → Bytes) : Prog Stores Bytes := do
  let sessionRecord ← loadSession addr
  let x ← process addr sessionRecord m
  let r ← SessionCipher.decryptWithSessionRecord x.1 m.message seed seeds
  storeSession addr r.2
  match x.2 with
  | some unsignedPreKeyId => do
    removePreKey unsignedPreKeyId
    return r.1
  | none => return r.1

/-- axolotl/sessionbuilder.py:88-131: lines 92, 104, 113, 127, 130, 131 -/
def processPreKeyBundle (addr : Address) (b : PreKeyBundle) (baseSeed ratchetSeed : Bytes) : Prog Stores Unit := do
  if !(← isTrustedIdentity addr.1 b.identityKey) then Prog.raise .untrustedIdentity
  else match b.signedPreKey with
    | none => Prog.raise .invalidKey
    | some theirSignedPreKey => do
      let ok ← Curve.verifySignature b.identityKey (Curve.serializePoint theirSignedPreKey) b.signedPreKeySignature
      if !ok then Prog.raise .invalidKey
      else
        let r ← loadSession addr
        let ourBaseKey := Curve.generateKeyPair baseSeed
        let theirOneTimePreKeyId := b.preKey.map fun _ => b.preKeyId
        let ourIdentityKey ← getIdentityKeyPair
        let r := SessionBuilder.archiveUnlessFresh r
        let s ← RatchetingSession.initializeSessionAsAlice r.sessionState
          { ourBaseKey := ourBaseKey, ourIdentityKey := ourIdentityKey,
            theirIdentityKey := b.identityKey, theirSignedPreKey := theirSignedPreKey,
            theirRatchetKey := theirSignedPreKey, theirOneTimePreKey := b.preKey } ratchetSeed
        let s ← s.setUnacknowledgedPreKeyMessage theirOneTimePreKeyId b.signedPreKeyId ourBaseKey.pub
        let registrationId ← getLocalRegistrationId
        let s ← s.setLocalRegistrationId registrationId
        let s ← s.setRemoteRegistrationId b.registrationId
        let s := s.setAliceBaseKey (Curve.serializePoint ourBaseKey.pub)
        storeSession addr (r.setState s)
        saveIdentity addr.1 b.identityKey

/-- axolotl/sessionbuilder.py:147-189: lines 149, 159, 179, 180 -/
def processInitiate (addr : Address) (m : KeyExchangeMessage) (rnd : SessionBuilder.InitiateRand) :
    Prog Stores (Option KeyExchangeMessage) := do
  let r ← loadSession addr
  let ok ← Curve.verifySignature m.identityKey (Curve.serializePoint m.baseKey) m.baseKeySignature
  if !ok then Prog.raise .invalidKey
  else
    let st := r.sessionState
    let (flags, ourIdentityKey, ourBaseKey, ourRatchetKey) ←
      if !st.hasPendingKeyExchange then do
        let ik ← getIdentityKeyPair
        pure (KeyExchangeMessage.RESPONSE_FLAG, ik, Curve.generateKeyPair rnd.baseSeed, Curve.generateKeyPair rnd.ratchetSeed)
      else do
        let ik ← st.getPendingKeyExchangeIdentityKey
        let bk ← st.getPendingKeyExchangeBaseKey
        let rk ← st.getPendingKeyExchangeRatchetKey
        pure (KeyExchangeMessage.RESPONSE_FLAG ||| KeyExchangeMessage.SIMULTAENOUS_INITIATE_FLAG, ik, bk, rk)
    let p : SymmetricParameters :=
      { ourIdentityKey := ourIdentityKey, ourBaseKey := ourBaseKey, ourRatchetKey := ourRatchetKey,
        theirBaseKey := m.baseKey, theirRatchetKey := m.ratchetKey, theirIdentityKey := m.identityKey }
    let r := SessionBuilder.archiveUnlessFresh r
    let s ← RatchetingSession.initializeSession r.sessionState p rnd.sendSeed
    storeSession addr (r.setState s)
    saveIdentity addr.1 m.identityKey
    let sig ← Curve.calculateSignature rnd.sigRand p.ourIdentityKey.priv (Curve.serializePoint p.ourBaseKey.pub)
    let resp ← KeyExchangeMessage.create (r.setState s).sessionState.getSessionVersion m.sequence flags
      p.ourBaseKey.pub sig p.ourRatchetKey.pub p.ourIdentityKey.pub
    return some resp

/-- axolotl/sessionbuilder.py:191-227: lines 192, 226, 227 -/
def processResponse (addr : Address) (m : KeyExchangeMessage) (sendSeed : Bytes) : Prog Stores (Option KeyExchangeMessage) := do
  let r ← loadSession addr
  let st := r.sessionState
  if !st.hasPendingKeyExchange || st.getPendingKeyExchangeSequence != m.sequence then
    if !m.isResponseForSimultaneousInitiate then Prog.raise .staleKeyExchange else return none
  else
    let bk ← st.getPendingKeyExchangeBaseKey
    let rk ← st.getPendingKeyExchangeRatchetKey
    let ik ← st.getPendingKeyExchangeIdentityKey
    let r := SessionBuilder.archiveUnlessFresh r
    let s ← RatchetingSession.initializeSession r.sessionState
      { ourBaseKey := bk, ourRatchetKey := rk, ourIdentityKey := ik, theirBaseKey := m.baseKey,
        theirRatchetKey := m.ratchetKey, theirIdentityKey := m.identityKey } sendSeed
    let ok ← Curve.verifySignature m.identityKey (Curve.serializePoint m.baseKey) m.baseKeySignature
    if !ok then Prog.raise .invalidKey
    else
      storeSession addr (r.setState s)
      saveIdentity addr.1 m.identityKey
      return none

/-- axolotl/sessionbuilder.py:133-145: line 135 -/
def processKeyExchangeMessage (addr : Address) (m : KeyExchangeMessage) (rnd : SessionBuilder.InitiateRand) :
    Prog Stores (Option KeyExchangeMessage) := do
  if !(← isTrustedIdentity addr.1 m.identityKey) then Prog.raise .untrustedIdentity
  else if m.isInitiate then processInitiate addr m rnd
  else processResponse addr m rnd.sendSeed

/-- axolotl/sessionbuilder.py:229-245: lines 235, 237, 240 -/
def processInitKeyExchangeMessage (addr : Address) (rnd : Nat) (baseSeed ratchetSeed sigRand : Bytes) :
    Prog Stores KeyExchangeMessage := do
  let sequence := rnd + 1
  let baseKey := Curve.generateKeyPair baseSeed
  let ratchetKey := Curve.generateKeyPair ratchetSeed
  let identityKey ← getIdentityKeyPair
  let sig ← Curve.calculateSignature sigRand identityKey.priv (Curve.serializePoint baseKey.pub)
  let r ← loadSession addr
  let s ← r.sessionState.setPendingKeyExchange sequence baseKey ratchetKey identityKey
  storeSession addr (r.setState s)
  KeyExchangeMessage.create CiphertextMessage.CURRENT_VERSION sequence
    KeyExchangeMessage.INITIATE_FLAG baseKey.pub sig ratchetKey.pub identityKey.pub

end Steps

/-- The sender key store (axolotl/groups/state/senderkeystore.py). -/
def SenderKeys : Machine where
  State := GroupStore
  Query := SenderKeyName
  Answer _ := SenderKeyRecord
  answer g n := g n
  Change := SenderKeyName × SenderKeyRecord
  apply g x := g.store x.1 x.2

namespace GroupSteps

def loadSenderKey (n : SenderKeyName) : Prog SenderKeys SenderKeyRecord := .ask n fun r => .done (.ok r)
def storeSenderKey (n : SenderKeyName) (r : SenderKeyRecord) : Prog SenderKeys Unit :=
  .change (M := SenderKeys) (n, r) (.done (.ok ()))

/-- axolotl/groups/groupcipher.py:20-40: lines 25, 36 -/
def encrypt (n : SenderKeyName) (paddedPlaintext : Bytes) (rand : Bytes) : Prog SenderKeys Bytes := do
  let record ← loadSenderKey n
  match GroupCipher.encryptWithRecord record paddedPlaintext rand with
  | .ok (m, r) => do
    storeSenderKey n r
    return m.serialized
  | .error e => .done (GroupCipher.wrapNoSession (.error e))

/-- axolotl/groups/groupcipher.py:42-63: lines 47, 59 -/
def decrypt (n : SenderKeyName) (bytes : Bytes) : Prog SenderKeys Bytes := do
  let record ← loadSenderKey n
  match GroupCipher.decryptWithRecord record bytes with
  | .ok (pt, r) => do
    storeSenderKey n r
    return pt
  | .error e => .done (GroupCipher.wrapInvalid (.error e))

/-- axolotl/groups/groupsessionbuilder.py:10-20: lines 15, 20 -/
def process (n : SenderKeyName) (m : SenderKeyDistributionMessage) : Prog SenderKeys Unit := do
  let record ← loadSenderKey n
  let r ← record.addSenderKeyState m.id m.iteration m.chainKey m.signatureKey
  storeSenderKey n r

/-- axolotl/groups/groupsessionbuilder.py:35-42: line 35 -/
def storeCreated (n : SenderKeyName) : Res SenderKeyRecord → Prog SenderKeys SenderKeyDistributionMessage
  | .ok r => do
    storeSenderKey n r
    GroupSessionBuilder.wrapAssert (GroupSessionBuilder.distributionOf r)
  | .error e => .done (GroupSessionBuilder.wrapAssert (.error e))

/-- axolotl/groups/groupsessionbuilder.py:23-44: line 28 -/
def create (n : SenderKeyName) (rnd : GroupSessionBuilder.CreateRand) : Prog SenderKeys SenderKeyDistributionMessage := do
  let record ← loadSenderKey n
  if record.isEmpty then
    storeCreated n (record.setSenderKeyState rnd.keyId 0 rnd.senderKey (Curve.generateKeyPair rnd.signSeed))
  else .done (GroupSessionBuilder.wrapAssert (GroupSessionBuilder.distributionOf record))

end GroupSteps
end
end Axolotl
