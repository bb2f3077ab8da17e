import Verif.Model.SessionCipher
import Verif.Model.Group

/-!
# Objects that carry arguments

The parameter objects and their builders (axolotl/ratchet/aliceaxolotlparameters.py, axolotl/ratchet/bobaxolotlparamaters.py,
axolotl/ratchet/symmetricaxolotlparameters.py), and the two kinds of `SenderKeyDistributionMessage` objects.
-/

namespace Axolotl

/-! ## Builders.  A setter may be called with `None`. -/

/-- axolotl/ratchet/aliceaxolotlparameters.py:48-55 -/
structure AliceBuilder where
  ourIdentityKey : Option KeyPair := none
  ourBaseKey : Option KeyPair := none
  theirIdentityKey : Option ECPub := none
  theirSignedPreKey : Option ECPub := none
  theirRatchetKey : Option ECPub := none
  theirOneTimePreKey : Option ECPub := none

namespace AliceBuilder
/-- axolotl/ratchet/aliceaxolotlparameters.py:57-59 -/
def setOurIdentityKey (b : AliceBuilder) (k : Option KeyPair) : AliceBuilder := { b with ourIdentityKey := k }
/-- axolotl/ratchet/aliceaxolotlparameters.py:61-63 -/
def setOurBaseKey (b : AliceBuilder) (k : Option KeyPair) : AliceBuilder := { b with ourBaseKey := k }
/-- axolotl/ratchet/aliceaxolotlparameters.py:65-67 -/
def setTheirRatchetKey (b : AliceBuilder) (k : Option ECPub) : AliceBuilder := { b with theirRatchetKey := k }
/-- axolotl/ratchet/aliceaxolotlparameters.py:69-71 -/
def setTheirIdentityKey (b : AliceBuilder) (k : Option ECPub) : AliceBuilder := { b with theirIdentityKey := k }
/-- axolotl/ratchet/aliceaxolotlparameters.py:73-75 -/
def setTheirSignedPreKey (b : AliceBuilder) (k : Option ECPub) : AliceBuilder := { b with theirSignedPreKey := k }
/-- axolotl/ratchet/aliceaxolotlparameters.py:77-79 -/
def setTheirOneTimePreKey (b : AliceBuilder) (k : Option ECPub) : AliceBuilder := { b with theirOneTimePreKey := k }

/-- axolotl/ratchet/aliceaxolotlparameters.py:81-83 with the check of lines 22-24; the getters of lines 26-42 are the fields. -/
def create (b : AliceBuilder) : Res AliceParameters :=
  match b.ourBaseKey, b.ourIdentityKey, b.theirSignedPreKey, b.theirRatchetKey, b.theirIdentityKey with
  | some base, some identity, some signed, some ratchet, some theirs =>
    .ok { ourIdentityKey := identity, ourBaseKey := base, theirIdentityKey := theirs, theirSignedPreKey := signed,
          theirRatchetKey := ratchet, theirOneTimePreKey := b.theirOneTimePreKey }
  | _, _, _, _, _ => .error .valueError
end AliceBuilder

/-- axolotl/ratchet/bobaxolotlparamaters.py:48-55 -/
structure BobBuilder where
  ourIdentityKey : Option KeyPair := none
  ourSignedPreKey : Option KeyPair := none
  ourOneTimePreKey : Option KeyPair := none
  ourRatchetKey : Option KeyPair := none
  theirIdentityKey : Option ECPub := none
  theirBaseKey : Option ECPub := none

namespace BobBuilder
/-- axolotl/ratchet/bobaxolotlparamaters.py:57-59 -/
def setOurIdentityKey (b : BobBuilder) (k : Option KeyPair) : BobBuilder := { b with ourIdentityKey := k }
/-- axolotl/ratchet/bobaxolotlparamaters.py:61-63 -/
def setOurSignedPreKey (b : BobBuilder) (k : Option KeyPair) : BobBuilder := { b with ourSignedPreKey := k }
/-- axolotl/ratchet/bobaxolotlparamaters.py:65-67 -/
def setOurOneTimePreKey (b : BobBuilder) (k : Option KeyPair) : BobBuilder := { b with ourOneTimePreKey := k }
/-- axolotl/ratchet/bobaxolotlparamaters.py:69-71 -/
def setOurRatchetKey (b : BobBuilder) (k : Option KeyPair) : BobBuilder := { b with ourRatchetKey := k }
/-- axolotl/ratchet/bobaxolotlparamaters.py:73-75 -/
def setTheirIdentityKey (b : BobBuilder) (k : Option ECPub) : BobBuilder := { b with theirIdentityKey := k }
/-- axolotl/ratchet/bobaxolotlparamaters.py:77-79 -/
def setTheirBaseKey (b : BobBuilder) (k : Option ECPub) : BobBuilder := { b with theirBaseKey := k }

/-- axolotl/ratchet/bobaxolotlparamaters.py:81-83 with the check of lines 22-24; the getters of lines 26-42 are the fields. -/
def create (b : BobBuilder) : Res BobParameters :=
  match b.ourIdentityKey, b.ourSignedPreKey, b.ourRatchetKey, b.theirIdentityKey, b.theirBaseKey with
  | some identity, some signed, some ratchet, some theirs, some base =>
    .ok { ourIdentityKey := identity, ourSignedPreKey := signed, ourRatchetKey := ratchet,
          ourOneTimePreKey := b.ourOneTimePreKey, theirIdentityKey := theirs, theirBaseKey := base }
  | _, _, _, _, _ => .error .valueError
end BobBuilder

/-- axolotl/ratchet/symmetricaxolotlparameters.py:48-55 -/
structure SymmetricBuilder where
  ourIdentityKey : Option KeyPair := none
  ourBaseKey : Option KeyPair := none
  ourRatchetKey : Option KeyPair := none
  theirRatchetKey : Option ECPub := none
  theirIdentityKey : Option ECPub := none
  theirBaseKey : Option ECPub := none

namespace SymmetricBuilder
/-- axolotl/ratchet/symmetricaxolotlparameters.py:57-59 -/
def setOurIdentityKey (b : SymmetricBuilder) (k : Option KeyPair) : SymmetricBuilder := { b with ourIdentityKey := k }
/-- axolotl/ratchet/symmetricaxolotlparameters.py:61-63 -/
def setOurBaseKey (b : SymmetricBuilder) (k : Option KeyPair) : SymmetricBuilder := { b with ourBaseKey := k }
/-- axolotl/ratchet/symmetricaxolotlparameters.py:65-67 -/
def setOurRatchetKey (b : SymmetricBuilder) (k : Option KeyPair) : SymmetricBuilder := { b with ourRatchetKey := k }
/-- axolotl/ratchet/symmetricaxolotlparameters.py:69-71 -/
def setTheirRatchetKey (b : SymmetricBuilder) (k : Option ECPub) : SymmetricBuilder := { b with theirRatchetKey := k }
/-- axolotl/ratchet/symmetricaxolotlparameters.py:73-75 -/
def setTheirIdentityKey (b : SymmetricBuilder) (k : Option ECPub) : SymmetricBuilder := { b with theirIdentityKey := k }
/-- axolotl/ratchet/symmetricaxolotlparameters.py:77-79 -/
def setTheirBaseKey (b : SymmetricBuilder) (k : Option ECPub) : SymmetricBuilder := { b with theirBaseKey := k }

/-- axolotl/ratchet/symmetricaxolotlparameters.py:81-83 with the check of lines 22-24; the getters of lines 26-42 are the
fields. -/
def create (b : SymmetricBuilder) : Res SymmetricParameters :=
  match b.ourBaseKey, b.ourIdentityKey, b.ourRatchetKey, b.theirRatchetKey, b.theirIdentityKey, b.theirBaseKey with
  | some base, some identity, some ratchet, some theirRatchet, some theirs, some theirBase =>
    .ok { ourBaseKey := base, ourRatchetKey := ratchet, ourIdentityKey := identity, theirBaseKey := theirBase,
          theirRatchetKey := theirRatchet, theirIdentityKey := theirs }
  | _, _, _, _, _, _ => .error .valueError
end SymmetricBuilder

section
variable [Crypto]

namespace RatchetingSession
/-- axolotl/ratchet/ratchetingsession.py:14-37 with the builders, call by call -/
def initializeSessionBuilt (s : SessionState) (p : SymmetricParameters) (seed : Bytes) : Res SessionState := do
  if ← isAlice p.ourBaseKey.pub p.theirBaseKey then
    let b : AliceBuilder := {}
    let b := (((((b.setOurBaseKey (some p.ourBaseKey)).setOurIdentityKey (some p.ourIdentityKey)).setTheirRatchetKey
      (some p.theirRatchetKey)).setTheirIdentityKey (some p.theirIdentityKey)).setTheirSignedPreKey
      (some p.theirBaseKey)).setTheirOneTimePreKey none
    let q ← b.create
    initializeSessionAsAlice s q seed
  else
    let b : BobBuilder := {}
    let b := (((((b.setOurIdentityKey (some p.ourIdentityKey)).setOurRatchetKey (some p.ourRatchetKey)).setOurSignedPreKey
      (some p.ourBaseKey)).setOurOneTimePreKey none).setTheirBaseKey (some p.theirBaseKey)).setTheirIdentityKey
      (some p.theirIdentityKey)
    let q ← b.create
    initializeSessionAsBob s q
end RatchetingSession

namespace SessionBuilder
/-- axolotl/sessionbuilder.py:50-86 with the builder, call by call (lines 63-73 and 78) -/
def processV3Built (w : World) (r : SessionRecord) (m : PreKeyWhisperMessage) : Res (SessionRecord × Option Nat) :=
  if r.hasSessionState m.version (Curve.serializePoint m.baseKey) then .ok (r, none)
  else do
    let spk ← w.loadSignedPreKey m.signedPreKeyId
    let ourSignedPreKey ← SignedPreKeyRecord.getKeyPair spk
    let parameters : BobBuilder := {}
    let parameters := ((((parameters.setTheirBaseKey (some m.baseKey)).setTheirIdentityKey (some m.identityKey)).setOurIdentityKey
      (some w.identityKeyPair)).setOurSignedPreKey (some ourSignedPreKey)).setOurRatchetKey (some ourSignedPreKey)
    let parameters ← match m.preKeyId with
      | none => .ok (parameters.setOurOneTimePreKey none)
      | some id => do
        let pk ← w.loadPreKey id
        let kp ← PreKeyRecord.getKeyPair pk
        Except.ok (parameters.setOurOneTimePreKey (some kp))
    let r := archiveUnlessFresh r
    let p ← parameters.create
    let s ← RatchetingSession.initializeSessionAsBob r.sessionState p
    let s ← s.setLocalRegistrationId w.registrationId
    let s ← s.setRemoteRegistrationId m.registrationId
    let s := s.setAliceBaseKey (Curve.serializePoint m.baseKey)
    let unsigned := match m.preKeyId with
      | none => none
      | some id => if id ≠ Medium.MAX_VALUE then some id else none
    .ok (r.setState s, unsigned)

/-- axolotl/sessionbuilder.py:88-131 with the builder, call by call (lines 108-117 and 122) and with the two tests of the
signed prekey in the order of the source (lines 95-102).  The setter of a signed prekey that is `None` is not reached. -/
def processPreKeyBundleBuilt (w : World) (addr : Address) (b : PreKeyBundle) (baseSeed ratchetSeed : Bytes) : Outcome Unit :=
  Outcome.ofRes
    (if !w.isTrusted addr.1 b.identityKey then .error .untrustedIdentity
     else do
      let bad ← match b.signedPreKey with
        | none => .ok false
        | some k => do
          let ok ← Curve.verifySignature b.identityKey (Curve.serializePoint k) b.signedPreKeySignature
          Except.ok (!ok)
      if bad then .error .invalidKey
      else if b.signedPreKey.isNone then .error .invalidKey
      else do
        let r := w.loadSession addr
        let ourBaseKey := Curve.generateKeyPair baseSeed
        let theirOneTimePreKeyId := if b.preKey.isSome then some b.preKeyId else none
        let parameters : AliceBuilder := {}
        let parameters := (((((parameters.setOurBaseKey (some ourBaseKey)).setOurIdentityKey
          (some w.identityKeyPair)).setTheirIdentityKey (some b.identityKey)).setTheirSignedPreKey
          b.signedPreKey).setTheirRatchetKey b.signedPreKey).setTheirOneTimePreKey b.preKey
        let r := archiveUnlessFresh r
        let p ← parameters.create
        let s ← RatchetingSession.initializeSessionAsAlice r.sessionState p ratchetSeed
        let s ← s.setUnacknowledgedPreKeyMessage theirOneTimePreKeyId b.signedPreKeyId ourBaseKey.pub
        let s ← s.setLocalRegistrationId w.registrationId
        let s ← s.setRemoteRegistrationId b.registrationId
        let s := s.setAliceBaseKey (Curve.serializePoint ourBaseKey.pub)
        .ok ([.session addr (r.setState s), .identity addr.1 b.identityKey], ()))

/-- axolotl/sessionbuilder.py:147-180 with the builder, call by call (lines 156-171) -/
def processInitiateStateBuilt (w : World) (addr : Address) (m : KeyExchangeMessage) (rnd : InitiateRand) :
    Res (SessionRecord × Nat × SymmetricParameters) := do
  let r := w.loadSession addr
  let ok ← Curve.verifySignature m.identityKey (Curve.serializePoint m.baseKey) m.baseKeySignature
  if !ok then .error .invalidKey
  else do
    let st := r.sessionState
    let builder : SymmetricBuilder := {}
    let (flags, builder) ←
      if !st.hasPendingKeyExchange then
        .ok (KeyExchangeMessage.RESPONSE_FLAG, ((builder.setOurIdentityKey (some w.identityKeyPair)).setOurBaseKey
          (some (Curve.generateKeyPair rnd.baseSeed))).setOurRatchetKey (some (Curve.generateKeyPair rnd.ratchetSeed)))
      else do
        let ik ← st.getPendingKeyExchangeIdentityKey
        let builder := builder.setOurIdentityKey (some ik)
        let bk ← st.getPendingKeyExchangeBaseKey
        let builder := builder.setOurBaseKey (some bk)
        let rk ← st.getPendingKeyExchangeRatchetKey
        let builder := builder.setOurRatchetKey (some rk)
        Except.ok (KeyExchangeMessage.RESPONSE_FLAG ||| KeyExchangeMessage.SIMULTAENOUS_INITIATE_FLAG, builder)
    let builder := ((builder.setTheirBaseKey (some m.baseKey)).setTheirRatchetKey (some m.ratchetKey)).setTheirIdentityKey
      (some m.identityKey)
    let p ← builder.create
    let r := archiveUnlessFresh r
    let s ← RatchetingSession.initializeSessionBuilt r.sessionState p rnd.sendSeed
    .ok (r.setState s, flags, p)

/-- axolotl/sessionbuilder.py:191-227 with the builder, call by call (lines 205-213 and 218) -/
def processResponseBuilt (w : World) (addr : Address) (m : KeyExchangeMessage) (sendSeed : Bytes) :
    Outcome (Option KeyExchangeMessage) :=
  let r := w.loadSession addr
  let st := r.sessionState
  if !st.hasPendingKeyExchange || st.getPendingKeyExchangeSequence != m.sequence then
    if !m.isResponseForSimultaneousInitiate then ⟨[], .error .staleKeyExchange⟩ else ⟨[], .ok none⟩
  else Outcome.ofRes do
    let parameters : SymmetricBuilder := {}
    let bk ← st.getPendingKeyExchangeBaseKey
    let parameters := parameters.setOurBaseKey (some bk)
    let rk ← st.getPendingKeyExchangeRatchetKey
    let parameters := parameters.setOurRatchetKey (some rk)
    let ik ← st.getPendingKeyExchangeIdentityKey
    let parameters := parameters.setOurIdentityKey (some ik)
    let parameters := ((parameters.setTheirBaseKey (some m.baseKey)).setTheirRatchetKey (some m.ratchetKey)).setTheirIdentityKey
      (some m.identityKey)
    let r := archiveUnlessFresh r
    let p ← parameters.create
    let s ← RatchetingSession.initializeSessionBuilt r.sessionState p sendSeed
    let ok ← Curve.verifySignature m.identityKey (Curve.serializePoint m.baseKey) m.baseKeySignature
    if !ok then .error .invalidKey
    else .ok ([.session addr (r.setState s), .identity addr.1 m.identityKey], none)
end SessionBuilder

/-! ## Distribution messages -/

/-- A `SenderKeyDistributionMessage` object: its attributes, and whether the attribute `chainKey` is a `bytearray`. -/
structure DistributionObject where
  message : SenderKeyDistributionMessage
  isArray : Bool

namespace DistributionObject
/-- axolotl/protocol/senderkeydistributionmessage.py:19-53: the parser takes the value of a protobuf field, which is `bytes`. -/
def ofSerialized (bs : Bytes) : Res DistributionObject := do
  let m ← SenderKeyDistributionMessage.parse bs
  .ok ⟨m, false⟩

/-- axolotl/groups/groupsessionbuilder.py:23-44: the object that is returned has the chain key of
`SenderKeyState.getSenderChainKey` (axolotl/groups/state/senderkeystate.py:52-54), a `bytearray`;
axolotl/protocol/senderkeydistributionmessage.py:58 keeps it as it is. -/
def create (g : GroupStore) (n : SenderKeyName) (rnd : GroupSessionBuilder.CreateRand) : GOutcome DistributionObject :=
  let o := GroupSessionBuilder.create g n rnd
  ⟨o.stored, o.result.map fun m => ⟨m, true⟩⟩

/-- axolotl/groups/state/senderkeystate.py:34-35 with either kind of chain key: a protobuf `bytes` field takes `bytes` only and
raises `TypeError` on a `bytearray`; the iteration is assigned before. -/
def addSenderKeyState (r : SenderKeyRecord) (o : DistributionObject) : Res SenderKeyRecord := do
  let _ ← chkU32 o.message.iteration
  if o.isArray then .error .typeError
  else r.addSenderKeyState o.message.id o.message.iteration o.message.chainKey o.message.signatureKey

/-- axolotl/groups/groupsessionbuilder.py:10-20 -/
def process (g : GroupStore) (n : SenderKeyName) (o : DistributionObject) : GOutcome Unit :=
  GroupSessionBuilder.storeAdded (addSenderKeyState (g n) o)
end DistributionObject

end
end Axolotl
