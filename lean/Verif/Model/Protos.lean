import Verif.Model.Wire

/-!
# The generated protobuf message classes

Field tables of `axolotl/protobuf/WhisperTextProtocol.proto` (= `axolotl/protocol/whisperprotos_pb2.py`)
and `axolotl/protobuf/LocalStorageProtocol.proto` (= `axolotl/state/storageprotos_pb2.py`).
All fields are proto2 `optional`/`repeated`, so presence is an `Option`.  Serialisation writes
the present fields in field-number order.  Unknown fields are dropped on parsing (simplification:
the library keeps them for re-serialisation; nothing in the modelled code writes any).
-/

namespace Axolotl
open Wire

/-- `SerializeToString()` -/
def serializeWith {α : Type} (toFields : α → List Field) (a : α) : Bytes := encFields (toFields a)

/-- `ParseFromString(bs)` -/
def parseWith {α : Type} (ofFields : List Field → Option α) (bs : Bytes) : Res α :=
  match decFields bs with
  | none => .error .decodeError
  | some fs => match ofFields fs with
    | none => .error .decodeError
    | some a => .ok a

/-! ## WhisperTextProtocol.proto -/

/-- axolotl/protobuf/WhisperTextProtocol.proto:6-11 -/
structure WhisperMessageP where
  ratchetKey : Option Bytes := none
  counter : Option Nat := none
  previousCounter : Option Nat := none
  ciphertext : Option Bytes := none
  deriving DecidableEq, Repr

def WhisperMessageP.toFields (m : WhisperMessageP) : List Field :=
  putBytes 1 m.ratchetKey ++ putVarint 2 m.counter ++ putVarint 3 m.previousCounter ++
    putBytes 4 m.ciphertext

def WhisperMessageP.ofFields (fs : List Field) : Option WhisperMessageP :=
  some { ratchetKey := getBytes 1 fs, counter := getU32 2 fs, previousCounter := getU32 3 fs,
         ciphertext := getBytes 4 fs }

/-- axolotl/protobuf/WhisperTextProtocol.proto:13-20 -/
structure PreKeyWhisperMessageP where
  preKeyId : Option Nat := none
  baseKey : Option Bytes := none
  identityKey : Option Bytes := none
  message : Option Bytes := none
  registrationId : Option Nat := none
  signedPreKeyId : Option Nat := none
  deriving DecidableEq, Repr

def PreKeyWhisperMessageP.toFields (m : PreKeyWhisperMessageP) : List Field :=
  putVarint 1 m.preKeyId ++ putBytes 2 m.baseKey ++ putBytes 3 m.identityKey ++
    putBytes 4 m.message ++ putVarint 5 m.registrationId ++ putVarint 6 m.signedPreKeyId

def PreKeyWhisperMessageP.ofFields (fs : List Field) : Option PreKeyWhisperMessageP :=
  some { preKeyId := getU32 1 fs, baseKey := getBytes 2 fs, identityKey := getBytes 3 fs,
         message := getBytes 4 fs, registrationId := getU32 5 fs, signedPreKeyId := getU32 6 fs }

/-- axolotl/protobuf/WhisperTextProtocol.proto:22-28 -/
structure KeyExchangeMessageP where
  id : Option Nat := none
  baseKey : Option Bytes := none
  ratchetKey : Option Bytes := none
  identityKey : Option Bytes := none
  baseKeySignature : Option Bytes := none
  deriving DecidableEq, Repr

def KeyExchangeMessageP.toFields (m : KeyExchangeMessageP) : List Field :=
  putVarint 1 m.id ++ putBytes 2 m.baseKey ++ putBytes 3 m.ratchetKey ++
    putBytes 4 m.identityKey ++ putBytes 5 m.baseKeySignature

def KeyExchangeMessageP.ofFields (fs : List Field) : Option KeyExchangeMessageP :=
  some { id := getU32 1 fs, baseKey := getBytes 2 fs, ratchetKey := getBytes 3 fs,
         identityKey := getBytes 4 fs, baseKeySignature := getBytes 5 fs }

/-- axolotl/protobuf/WhisperTextProtocol.proto:30-34 -/
structure SenderKeyMessageP where
  id : Option Nat := none
  iteration : Option Nat := none
  ciphertext : Option Bytes := none
  deriving DecidableEq, Repr

def SenderKeyMessageP.toFields (m : SenderKeyMessageP) : List Field :=
  putVarint 1 m.id ++ putVarint 2 m.iteration ++ putBytes 3 m.ciphertext

def SenderKeyMessageP.ofFields (fs : List Field) : Option SenderKeyMessageP :=
  some { id := getU32 1 fs, iteration := getU32 2 fs, ciphertext := getBytes 3 fs }

/-- axolotl/protobuf/WhisperTextProtocol.proto:36-41 -/
structure SenderKeyDistributionMessageP where
  id : Option Nat := none
  iteration : Option Nat := none
  chainKey : Option Bytes := none
  signingKey : Option Bytes := none
  deriving DecidableEq, Repr

def SenderKeyDistributionMessageP.toFields (m : SenderKeyDistributionMessageP) : List Field :=
  putVarint 1 m.id ++ putVarint 2 m.iteration ++ putBytes 3 m.chainKey ++ putBytes 4 m.signingKey

def SenderKeyDistributionMessageP.ofFields (fs : List Field) : Option SenderKeyDistributionMessageP :=
  some { id := getU32 1 fs, iteration := getU32 2 fs, chainKey := getBytes 3 fs,
         signingKey := getBytes 4 fs }

/-! ## LocalStorageProtocol.proto -/

/-- axolotl/protobuf/LocalStorageProtocol.proto:11-14 `SessionStructure.Chain.ChainKey` -/
structure ChainKeyS where
  index : Option Nat := none
  key : Option Bytes := none
  deriving DecidableEq, Repr

def ChainKeyS.toFields (m : ChainKeyS) : List Field := putVarint 1 m.index ++ putBytes 2 m.key

def ChainKeyS.ofFields (fs : List Field) : Option ChainKeyS :=
  some { index := getU32 1 fs, key := getBytes 2 fs }

/-- axolotl/protobuf/LocalStorageProtocol.proto:18-23 `SessionStructure.Chain.MessageKey` -/
structure MessageKeyS where
  index : Option Nat := none
  cipherKey : Option Bytes := none
  macKey : Option Bytes := none
  iv : Option Bytes := none
  deriving DecidableEq, Repr

def MessageKeyS.toFields (m : MessageKeyS) : List Field :=
  putVarint 1 m.index ++ putBytes 2 m.cipherKey ++ putBytes 3 m.macKey ++ putBytes 4 m.iv

def MessageKeyS.ofFields (fs : List Field) : Option MessageKeyS :=
  some { index := getU32 1 fs, cipherKey := getBytes 2 fs, macKey := getBytes 3 fs,
         iv := getBytes 4 fs }

/-- axolotl/protobuf/LocalStorageProtocol.proto:7-26 `SessionStructure.Chain` -/
structure ChainS where
  senderRatchetKey : Option Bytes := none
  senderRatchetKeyPrivate : Option Bytes := none
  chainKey : Option ChainKeyS := none
  messageKeys : List MessageKeyS := []
  deriving DecidableEq, Repr

def ChainS.toFields (m : ChainS) : List Field :=
  putBytes 1 m.senderRatchetKey ++ putBytes 2 m.senderRatchetKeyPrivate ++
    putMsg 3 ChainKeyS.toFields m.chainKey ++ putRep 4 MessageKeyS.toFields m.messageKeys

def ChainS.ofFields (fs : List Field) : Option ChainS := do
  let ck ← getMsg 3 ChainKeyS.ofFields fs
  let mks ← getRep 4 MessageKeyS.ofFields fs
  some { senderRatchetKey := getBytes 1 fs, senderRatchetKeyPrivate := getBytes 2 fs,
         chainKey := ck, messageKeys := mks }

/-- axolotl/protobuf/LocalStorageProtocol.proto:28-36 `SessionStructure.PendingKeyExchange` -/
structure PendingKeyExchangeS where
  sequence : Option Nat := none
  localBaseKey : Option Bytes := none
  localBaseKeyPrivate : Option Bytes := none
  localRatchetKey : Option Bytes := none
  localRatchetKeyPrivate : Option Bytes := none
  localIdentityKey : Option Bytes := none
  localIdentityKeyPrivate : Option Bytes := none
  deriving DecidableEq, Repr

def PendingKeyExchangeS.toFields (m : PendingKeyExchangeS) : List Field :=
  putVarint 1 m.sequence ++ putBytes 2 m.localBaseKey ++ putBytes 3 m.localBaseKeyPrivate ++
    putBytes 4 m.localRatchetKey ++ putBytes 5 m.localRatchetKeyPrivate ++
    putBytes 7 m.localIdentityKey ++ putBytes 8 m.localIdentityKeyPrivate

def PendingKeyExchangeS.ofFields (fs : List Field) : Option PendingKeyExchangeS :=
  some { sequence := getU32 1 fs, localBaseKey := getBytes 2 fs, localBaseKeyPrivate := getBytes 3 fs,
         localRatchetKey := getBytes 4 fs, localRatchetKeyPrivate := getBytes 5 fs,
         localIdentityKey := getBytes 7 fs, localIdentityKeyPrivate := getBytes 8 fs }

/-- axolotl/protobuf/LocalStorageProtocol.proto:38-42 `SessionStructure.PendingPreKey`
(`signedPreKeyId` is an `int32`). -/
structure PendingPreKeyS where
  preKeyId : Option Nat := none
  baseKey : Option Bytes := none
  signedPreKeyId : Option Int := none
  deriving DecidableEq, Repr

def PendingPreKeyS.toFields (m : PendingPreKeyS) : List Field :=
  putVarint 1 m.preKeyId ++ putBytes 2 m.baseKey ++ putI32 3 m.signedPreKeyId

def PendingPreKeyS.ofFields (fs : List Field) : Option PendingPreKeyS :=
  some { preKeyId := getU32 1 fs, baseKey := getBytes 2 fs, signedPreKeyId := getI32 3 fs }

/-- axolotl/protobuf/LocalStorageProtocol.proto:6-62 `SessionStructure` -/
structure SessionS where
  sessionVersion : Option Nat := none
  localIdentityPublic : Option Bytes := none
  remoteIdentityPublic : Option Bytes := none
  rootKey : Option Bytes := none
  previousCounter : Option Nat := none
  senderChain : Option ChainS := none
  receiverChains : List ChainS := []
  pendingKeyExchange : Option PendingKeyExchangeS := none
  pendingPreKey : Option PendingPreKeyS := none
  remoteRegistrationId : Option Nat := none
  localRegistrationId : Option Nat := none
  needsRefresh : Option Bool := none
  aliceBaseKey : Option Bytes := none
  deriving DecidableEq, Repr

def SessionS.toFields (m : SessionS) : List Field :=
  putVarint 1 m.sessionVersion ++ putBytes 2 m.localIdentityPublic ++
    putBytes 3 m.remoteIdentityPublic ++ putBytes 4 m.rootKey ++ putVarint 5 m.previousCounter ++
    putMsg 6 ChainS.toFields m.senderChain ++ putRep 7 ChainS.toFields m.receiverChains ++
    putMsg 8 PendingKeyExchangeS.toFields m.pendingKeyExchange ++
    putMsg 9 PendingPreKeyS.toFields m.pendingPreKey ++ putVarint 10 m.remoteRegistrationId ++
    putVarint 11 m.localRegistrationId ++ putBool 12 m.needsRefresh ++ putBytes 13 m.aliceBaseKey

def SessionS.ofFields (fs : List Field) : Option SessionS := do
  let sc ← getMsg 6 ChainS.ofFields fs
  let rcs ← getRep 7 ChainS.ofFields fs
  let pke ← getMsg 8 PendingKeyExchangeS.ofFields fs
  let ppk ← getMsg 9 PendingPreKeyS.ofFields fs
  some { sessionVersion := getU32 1 fs, localIdentityPublic := getBytes 2 fs,
         remoteIdentityPublic := getBytes 3 fs, rootKey := getBytes 4 fs,
         previousCounter := getU32 5 fs, senderChain := sc, receiverChains := rcs,
         pendingKeyExchange := pke, pendingPreKey := ppk, remoteRegistrationId := getU32 10 fs,
         localRegistrationId := getU32 11 fs, needsRefresh := getBool 12 fs,
         aliceBaseKey := getBytes 13 fs }

/-- axolotl/protobuf/LocalStorageProtocol.proto:64-67 -/
structure RecordS where
  currentSession : Option SessionS := none
  previousSessions : List SessionS := []
  deriving DecidableEq, Repr

def RecordS.toFields (m : RecordS) : List Field :=
  putMsg 1 SessionS.toFields m.currentSession ++ putRep 2 SessionS.toFields m.previousSessions

def RecordS.ofFields (fs : List Field) : Option RecordS := do
  let cur ← getMsg 1 SessionS.ofFields fs
  let prev ← getRep 2 SessionS.ofFields fs
  some { currentSession := cur, previousSessions := prev }

/-- axolotl/protobuf/LocalStorageProtocol.proto:69-73 -/
structure PreKeyRecordS where
  id : Option Nat := none
  publicKey : Option Bytes := none
  privateKey : Option Bytes := none
  deriving DecidableEq, Repr

def PreKeyRecordS.toFields (m : PreKeyRecordS) : List Field :=
  putVarint 1 m.id ++ putBytes 2 m.publicKey ++ putBytes 3 m.privateKey

def PreKeyRecordS.ofFields (fs : List Field) : Option PreKeyRecordS :=
  some { id := getU32 1 fs, publicKey := getBytes 2 fs, privateKey := getBytes 3 fs }

/-- axolotl/protobuf/LocalStorageProtocol.proto:75-81 -/
structure SignedPreKeyRecordS where
  id : Option Nat := none
  publicKey : Option Bytes := none
  privateKey : Option Bytes := none
  signature : Option Bytes := none
  timestamp : Option Nat := none
  deriving DecidableEq, Repr

def SignedPreKeyRecordS.toFields (m : SignedPreKeyRecordS) : List Field :=
  putVarint 1 m.id ++ putBytes 2 m.publicKey ++ putBytes 3 m.privateKey ++ putBytes 4 m.signature ++
    putFixed64 5 m.timestamp

def SignedPreKeyRecordS.ofFields (fs : List Field) : Option SignedPreKeyRecordS :=
  some { id := getU32 1 fs, publicKey := getBytes 2 fs, privateKey := getBytes 3 fs,
         signature := getBytes 4 fs, timestamp := getFixed64 5 fs }

/-- axolotl/protobuf/LocalStorageProtocol.proto:83-86 -/
structure IdentityKeyPairS where
  publicKey : Option Bytes := none
  privateKey : Option Bytes := none
  deriving DecidableEq, Repr

def IdentityKeyPairS.toFields (m : IdentityKeyPairS) : List Field :=
  putBytes 1 m.publicKey ++ putBytes 2 m.privateKey

def IdentityKeyPairS.ofFields (fs : List Field) : Option IdentityKeyPairS :=
  some { publicKey := getBytes 1 fs, privateKey := getBytes 2 fs }

/-- axolotl/protobuf/LocalStorageProtocol.proto:89-92 `SenderKeyStateStructure.SenderChainKey` and
:94-97 `SenderKeyStateStructure.SenderMessageKey` (identical field tables). -/
structure SenderSeedS where
  iteration : Option Nat := none
  seed : Option Bytes := none
  deriving DecidableEq, Repr

def SenderSeedS.toFields (m : SenderSeedS) : List Field :=
  putVarint 1 m.iteration ++ putBytes 2 m.seed

def SenderSeedS.ofFields (fs : List Field) : Option SenderSeedS :=
  some { iteration := getU32 1 fs, seed := getBytes 2 fs }

/-- axolotl/protobuf/LocalStorageProtocol.proto:99-102 `SenderKeyStateStructure.SenderSigningKey` -/
structure SenderSigningKeyS where
  pub : Option Bytes := none
  priv : Option Bytes := none
  deriving DecidableEq, Repr

def SenderSigningKeyS.toFields (m : SenderSigningKeyS) : List Field :=
  putBytes 1 m.pub ++ putBytes 2 m.priv

def SenderSigningKeyS.ofFields (fs : List Field) : Option SenderSigningKeyS :=
  some { pub := getBytes 1 fs, priv := getBytes 2 fs }

/-- axolotl/protobuf/LocalStorageProtocol.proto:88-108 -/
structure SenderKeyStateS where
  senderKeyId : Option Nat := none
  senderChainKey : Option SenderSeedS := none
  senderSigningKey : Option SenderSigningKeyS := none
  senderMessageKeys : List SenderSeedS := []
  deriving DecidableEq, Repr

def SenderKeyStateS.toFields (m : SenderKeyStateS) : List Field :=
  putVarint 1 m.senderKeyId ++ putMsg 2 SenderSeedS.toFields m.senderChainKey ++
    putMsg 3 SenderSigningKeyS.toFields m.senderSigningKey ++
    putRep 4 SenderSeedS.toFields m.senderMessageKeys

def SenderKeyStateS.ofFields (fs : List Field) : Option SenderKeyStateS := do
  let ck ← getMsg 2 SenderSeedS.ofFields fs
  let sk ← getMsg 3 SenderSigningKeyS.ofFields fs
  let mks ← getRep 4 SenderSeedS.ofFields fs
  some { senderKeyId := getU32 1 fs, senderChainKey := ck, senderSigningKey := sk,
         senderMessageKeys := mks }

/-- axolotl/protobuf/LocalStorageProtocol.proto:110-112 -/
structure SenderKeyRecordS where
  senderKeyStates : List SenderKeyStateS := []
  deriving DecidableEq, Repr

def SenderKeyRecordS.toFields (m : SenderKeyRecordS) : List Field :=
  putRep 1 SenderKeyStateS.toFields m.senderKeyStates

def SenderKeyRecordS.ofFields (fs : List Field) : Option SenderKeyRecordS := do
  let sts ← getRep 1 SenderKeyStateS.ofFields fs
  some { senderKeyStates := sts }

end Axolotl
