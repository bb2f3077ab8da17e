import Verif.Model.Ratchet

/-! # axolotl/state/sessionstate.py

A `SessionState` object is its protobuf structure (`SessionS`).  Methods that mutate the object return
the new structure.  `SessionState(other)` copies the structure (axolotl/state/sessionstate.py:17-19), so
mutating the copy leaves the original alone; with value semantics the copy is the identity. -/

namespace Axolotl
variable [Crypto]

abbrev SessionState := SessionS

namespace SessionState

/-- axolotl/state/sessionstate.py:26-27 -/
def getAliceBaseKey (s : SessionState) : Bytes := s.aliceBaseKey.getD []
/-- axolotl/state/sessionstate.py:29-30 -/
def setAliceBaseKey (s : SessionState) (k : Bytes) : SessionState := { s with aliceBaseKey := some k }
/-- axolotl/state/sessionstate.py:32-33 -/
def setSessionVersion (s : SessionState) (v : Nat) : SessionState := { s with sessionVersion := some v }
/-- axolotl/state/sessionstate.py:35-37 -/
def getSessionVersion (s : SessionState) : Nat :=
  if s.sessionVersion.getD 0 = 0 then 2 else s.sessionVersion.getD 0
/-- axolotl/state/sessionstate.py:39-40 -/
def setRemoteIdentityKey (s : SessionState) (k : ECPub) : SessionState :=
  { s with remoteIdentityPublic := some (Curve.serializePoint k) }
/-- axolotl/state/sessionstate.py:42-43 -/
def setLocalIdentityKey (s : SessionState) (k : ECPub) : SessionState :=
  { s with localIdentityPublic := some (Curve.serializePoint k) }
/-- axolotl/state/sessionstate.py:45-48; a protobuf field is never `None`. -/
def getRemoteIdentityKey (s : SessionState) : Res ECPub :=
  Curve.decodePoint (s.remoteIdentityPublic.getD [])
/-- axolotl/state/sessionstate.py:50-51 -/
def getLocalIdentityKey (s : SessionState) : Res ECPub :=
  Curve.decodePoint (s.localIdentityPublic.getD [])
/-- axolotl/state/sessionstate.py:53-54 -/
def getPreviousCounter (s : SessionState) : Nat := s.previousCounter.getD 0
/-- axolotl/state/sessionstate.py:56-57; callers pass a value below a stored `uint32`. -/
def setPreviousCounter (s : SessionState) (n : Nat) : SessionState := { s with previousCounter := some n }
/-- axolotl/state/sessionstate.py:59-60 -/
def getRootKey (s : SessionState) : Res RootKey := do
  let kdf ← Kdf.createFor s.getSessionVersion
  .ok { kdf := kdf, key := s.rootKey.getD [] }
/-- axolotl/state/sessionstate.py:62-63 -/
def setRootKey (s : SessionState) (r : RootKey) : SessionState := { s with rootKey := some r.key }

/-- `self.sessionStructure.senderChain`: reading an absent sub-message yields an empty one. -/
def senderChainD (s : SessionState) : ChainS := s.senderChain.getD {}

/-- axolotl/state/sessionstate.py:65-66 -/
def getSenderRatchetKey (s : SessionState) : Res ECPub :=
  Curve.decodePoint (s.senderChainD.senderRatchetKey.getD [])
/-- axolotl/state/sessionstate.py:68-72 -/
def getSenderRatchetKeyPair (s : SessionState) : Res KeyPair := do
  let pub ← s.getSenderRatchetKey
  .ok { pub := pub, priv := Curve.decodePrivatePoint (s.senderChainD.senderRatchetKeyPrivate.getD []) }
/-- axolotl/state/sessionstate.py:77-78 -/
def hasSenderChain (s : SessionState) : Bool := s.senderChain.isSome

/-- The loop of axolotl/state/sessionstate.py:83-88: every chain's ratchet key is decoded until the
first match; a chain whose key does not decode raises. -/
def findChain (key : ECPub) : List ChainS → Nat → Res (Option (ChainS × Nat))
  | [], _ => .ok none
  | c :: cs, i => do
    let k ← Curve.decodePoint (c.senderRatchetKey.getD [])
    if k = key then .ok (some (c, i)) else findChain key cs (i + 1)

/-- axolotl/state/sessionstate.py:80-88 -/
def getReceiverChain (s : SessionState) (key : ECPub) : Res (Option (ChainS × Nat)) :=
  findChain key s.receiverChains 0

/-- axolotl/state/sessionstate.py:74-75 -/
def hasReceiverChain (s : SessionState) (key : ECPub) : Res Bool := do
  let r ← s.getReceiverChain key
  .ok r.isSome

/-- axolotl/state/sessionstate.py:90-98; `None[0]` is a `TypeError`. -/
def getReceiverChainKey (s : SessionState) (key : ECPub) : Res ChainKey := do
  match ← s.getReceiverChain key with
  | none => .error .typeError
  | some (c, _) => do
    let kdf ← Kdf.createFor s.getSessionVersion
    let ck := c.chainKey.getD {}
    .ok { kdf := kdf, key := ck.key.getD [], index := ck.index.getD 0 }

/-- axolotl/state/sessionstate.py:110-111: the `5` -/
def MAX_RECEIVER_CHAINS : Nat := 5

/-- axolotl/state/sessionstate.py:100-111 -/
def addReceiverChain (s : SessionState) (key : ECPub) (chainKey : ChainKey) : Res SessionState := do
  let i ← chkU32 chainKey.index
  let chain : ChainS :=
    { senderRatchetKey := some (Curve.serializePoint key),
      chainKey := some { key := some chainKey.key, index := some i } }
  let chains := s.receiverChains ++ [chain]
  .ok { s with receiverChains := if chains.length > MAX_RECEIVER_CHAINS then chains.drop 1 else chains }

/-- axolotl/state/sessionstate.py:113-122: fields of the existing sender chain are overwritten in place
(its `messageKeys`, always empty, are kept). -/
def setSenderChain (s : SessionState) (kp : KeyPair) (chainKey : ChainKey) : Res SessionState := do
  let i ← chkU32 chainKey.index
  let chain : ChainS :=
    { s.senderChainD with
      senderRatchetKey := some (Curve.serializePoint kp.pub),
      senderRatchetKeyPrivate := some kp.priv,
      chainKey := some { key := some chainKey.key, index := some i } }
  .ok { s with senderChain := some chain }

/-- axolotl/state/sessionstate.py:124-127 -/
def getSenderChainKey (s : SessionState) : Res ChainKey := do
  let kdf ← Kdf.createFor s.getSessionVersion
  let ck := s.senderChainD.chainKey.getD {}
  .ok { kdf := kdf, key := ck.key.getD [], index := ck.index.getD 0 }

/-- axolotl/state/sessionstate.py:129-133.  An index outside `uint32` raises `ValueError`. -/
def setSenderChainKey (s : SessionState) (next : ChainKey) : Res SessionState := do
  let i ← chkU32 next.index
  let chain : ChainS :=
    { s.senderChainD with chainKey := some { key := some next.key, index := some i } }
  .ok { s with senderChain := some chain }

/-- Common shape of axolotl/state/sessionstate.py:149-192: fetch the chain, change it, write it back at
the same position (`CopyFrom` of the very same object is a no-op). -/
def modifyChain {α : Type} (s : SessionState) (key : ECPub) (f : ChainS → Res (α × ChainS)) :
    Res (α × SessionState) := do
  match ← s.getReceiverChain key with
  | none => .error .typeError
  | some (c, i) => do
    let r ← f c
    .ok (r.1, { s with receiverChains := s.receiverChains.set i r.2 })

/-- axolotl/state/sessionstate.py:135-147 -/
def hasMessageKeys (s : SessionState) (key : ECPub) (counter : Nat) : Res Bool := do
  match ← s.getReceiverChain key with
  | none => .error .typeError
  | some (c, _) => .ok (c.messageKeys.any fun mk => mk.index.getD 0 == counter)

/-- `MessageKeys(...)` from a stored structure, axolotl/state/sessionstate.py:162 -/
def messageKeysOf (mk : MessageKeyS) : MessageKeys :=
  { cipherKey := mk.cipherKey.getD [], macKey := mk.macKey.getD [], iv := mk.iv.getD [],
    counter := mk.index.getD 0 }

/-- The loop of axolotl/state/sessionstate.py:159-164: first match is taken out of the list. -/
def takeKey (counter : Nat) : List MessageKeyS → Option (MessageKeyS × List MessageKeyS)
  | [] => none
  | mk :: rest =>
    if mk.index.getD 0 = counter then some (mk, rest)
    else (takeKey counter rest).map fun p => (p.1, mk :: p.2)

/-- axolotl/state/sessionstate.py:149-168.  The only caller checks `hasMessageKeys` first, so the
`None` result (which would be an `AttributeError` at its use) is modelled as `TypeError`. -/
def removeMessageKeys (s : SessionState) (key : ECPub) (counter : Nat) :
    Res (MessageKeys × SessionState) :=
  s.modifyChain key fun c =>
    match takeKey counter c.messageKeys with
    | none => .error .typeError
    | some (mk, rest) => .ok (messageKeysOf mk, { c with messageKeys := rest })

/-- axolotl/state/sessionstate.py:170-182 -/
def setMessageKeys (s : SessionState) (key : ECPub) (mk : MessageKeys) : Res SessionState := do
  let i ← chkU32 mk.counter
  let r ← s.modifyChain key fun c =>
    .ok ((), { c with messageKeys := c.messageKeys ++
      [{ cipherKey := some mk.cipherKey, macKey := some mk.macKey, index := some i, iv := some mk.iv }] })
  .ok r.2

/-- axolotl/state/sessionstate.py:184-192 -/
def setReceiverChainKey (s : SessionState) (key : ECPub) (chainKey : ChainKey) : Res SessionState := do
  let r ← s.modifyChain key fun c => do
    let i ← chkU32 chainKey.index
    .ok ((), { c with chainKey := some { key := some chainKey.key, index := some i } })
  .ok r.2

/-- axolotl/state/sessionstate.py:194-210.  `MergeFrom` overwrites exactly the fields set in the new
structure; all seven are set, so it is an assignment.  The private keys are `bytes`. -/
def setPendingKeyExchange (s : SessionState) (sequence : Nat)
    (ourBaseKey ourRatchetKey ourIdentityKey : KeyPair) : Res SessionState := do
  let q ← chkU32 sequence
  let pending : PendingKeyExchangeS :=
    { sequence := some q,
      localBaseKey := some (Curve.serializePoint ourBaseKey.pub),
      localBaseKeyPrivate := some ourBaseKey.priv,
      localRatchetKey := some (Curve.serializePoint ourRatchetKey.pub),
      localRatchetKeyPrivate := some ourRatchetKey.priv,
      localIdentityKey := some (Curve.serializePoint ourIdentityKey.pub),
      localIdentityKeyPrivate := some ourIdentityKey.priv }
  .ok { s with pendingKeyExchange := some pending }

/-- reading an absent sub-message yields an empty one -/
def pendingKED (s : SessionState) : PendingKeyExchangeS := s.pendingKeyExchange.getD {}

/-- axolotl/state/sessionstate.py:212-213 -/
def getPendingKeyExchangeSequence (s : SessionState) : Nat := s.pendingKED.sequence.getD 0
/-- axolotl/state/sessionstate.py:215-218 -/
def getPendingKeyExchangeBaseKey (s : SessionState) : Res KeyPair := do
  let pub ← Curve.decodePoint (s.pendingKED.localBaseKey.getD [])
  .ok { pub := pub, priv := s.pendingKED.localBaseKeyPrivate.getD [] }
/-- axolotl/state/sessionstate.py:220-223 -/
def getPendingKeyExchangeRatchetKey (s : SessionState) : Res KeyPair := do
  let pub ← Curve.decodePoint (s.pendingKED.localRatchetKey.getD [])
  .ok { pub := pub, priv := s.pendingKED.localRatchetKeyPrivate.getD [] }
/-- axolotl/state/sessionstate.py:225-229 -/
def getPendingKeyExchangeIdentityKey (s : SessionState) : Res KeyPair := do
  let pub ← Curve.decodePoint (s.pendingKED.localIdentityKey.getD [])
  .ok { pub := pub, priv := s.pendingKED.localIdentityKeyPrivate.getD [] }
/-- axolotl/state/sessionstate.py:231-232 -/
def hasPendingKeyExchange (s : SessionState) : Bool := s.pendingKeyExchange.isSome

/-- axolotl/state/sessionstate.py:234-244.  `signedPreKeyId` is an `int32` field.  If `preKeyId` is
`None` an older value of the field would stay; the callers pass a state without `pendingPreKey`. -/
def setUnacknowledgedPreKeyMessage (s : SessionState) (preKeyId : Option Int) (signedPreKeyId : Int)
    (baseKey : ECPub) : Res SessionState := do
  let spk ← chkI32 signedPreKeyId
  let old := s.pendingPreKey.getD {}
  let pk ← match preKeyId with
    | none => .ok old.preKeyId
    | some i => do let i ← chkU32 i; Except.ok (some i)
  let pending : PendingPreKeyS :=
    { signedPreKeyId := some spk, baseKey := some (Curve.serializePoint baseKey), preKeyId := pk }
  .ok { s with pendingPreKey := some pending }

/-- axolotl/state/sessionstate.py:246-247 -/
def hasUnacknowledgedPreKeyMessage (s : SessionState) : Bool := s.pendingPreKey.isSome

/-- axolotl/state/sessionstate.py:276-294 -/
structure PendingItems where
  preKeyId : Option Nat
  signedPreKeyId : Int
  baseKey : ECPub
  deriving DecidableEq, Repr

/-- axolotl/state/sessionstate.py:249-256 -/
def getUnacknowledgedPreKeyMessageItems (s : SessionState) : Res PendingItems := do
  let p := s.pendingPreKey.getD {}
  let bk ← Curve.decodePoint (p.baseKey.getD [])
  .ok { preKeyId := p.preKeyId, signedPreKeyId := p.signedPreKeyId.getD 0, baseKey := bk }

/-- axolotl/state/sessionstate.py:258-259 -/
def clearUnacknowledgedPreKeyMessage (s : SessionState) : SessionState := { s with pendingPreKey := none }
/-- axolotl/state/sessionstate.py:261-262 -/
def setRemoteRegistrationId (s : SessionState) (i : Int) : Res SessionState := do
  let i ← chkU32 i
  .ok { s with remoteRegistrationId := some i }
/-- axolotl/state/sessionstate.py:267-268 -/
def setLocalRegistrationId (s : SessionState) (i : Int) : Res SessionState := do
  let i ← chkU32 i
  .ok { s with localRegistrationId := some i }
/-- axolotl/state/sessionstate.py:270-271 -/
def getLocalRegistrationId (s : SessionState) : Nat := s.localRegistrationId.getD 0

/-- axolotl/state/sessionstate.py:273-274 -/
def serialize (s : SessionState) : Bytes := serializeWith SessionS.toFields s

end SessionState
end Axolotl
