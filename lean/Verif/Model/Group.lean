import Verif.Model.Ratchet
import Verif.Model.Aes

/-! # axolotl/groups/**, axolotl/axolotladdress.py -/

namespace Axolotl
variable [Crypto]
open ByteUtil

/-- axolotl/groups/ratchet/sendermessagekey.py:7-31 -/
structure SenderMessageKey where
  iteration : Nat
  seed : Bytes
  iv : Bytes
  cipherKey : Bytes
  deriving DecidableEq, Repr

namespace SenderMessageKey
/-- the info string of axolotl/groups/ratchet/sendermessagekey.py:13 -/
def GROUP_INFO : Bytes := ascii "WhisperGroup"

/-- axolotl/groups/ratchet/sendermessagekey.py:8-19 -/
def mk' (iteration : Nat) (seed : Bytes) : SenderMessageKey :=
  let parts := split2 (Kdf.v3.deriveSecrets seed GROUP_INFO 48) 16 32
  { iteration := iteration, seed := seed, iv := parts.1, cipherKey := parts.2 }
end SenderMessageKey

/-- axolotl/groups/ratchet/senderchainkey.py:9-19 -/
structure SenderChainKey where
  iteration : Nat
  chainKey : Bytes
  deriving DecidableEq, Repr

namespace SenderChainKey
/-- axolotl/groups/ratchet/senderchainkey.py:10-11 -/
def MESSAGE_KEY_SEED : Bytes := [0x01]
def CHAIN_KEY_SEED : Bytes := [0x02]
/-- axolotl/groups/ratchet/senderchainkey.py:24-25,33-35 -/
def getSenderMessageKey (c : SenderChainKey) : SenderMessageKey :=
  SenderMessageKey.mk' c.iteration (Crypto.hmac c.chainKey MESSAGE_KEY_SEED)
/-- axolotl/groups/ratchet/senderchainkey.py:27-28,33-35 -/
def getNext (c : SenderChainKey) : SenderChainKey :=
  { iteration := c.iteration + 1, chainKey := Crypto.hmac c.chainKey CHAIN_KEY_SEED }
end SenderChainKey

/-- axolotl/groups/state/senderkeystate.py:9-47; the object is its protobuf structure. -/
abbrev SenderKeyState := SenderKeyStateS

namespace SenderKeyState

/-- axolotl/groups/state/senderkeystate.py:10-47 from a public key, or from a key pair when
`priv` is given. -/
def mk' (id iteration : Nat) (chainKey : Bytes) (pub : ECPub) (priv : Option ECPriv) :
    Res SenderKeyState := do
  let it ← chkU32 iteration
  let i ← chkU32 id
  .ok { senderKeyId := some i, senderChainKey := some { iteration := some it, seed := some chainKey },
        senderSigningKey := some { pub := some (Curve.serializePoint pub), priv := priv } }

/-- axolotl/groups/state/senderkeystate.py:49-50 -/
def getKeyId (s : SenderKeyState) : Nat := s.senderKeyId.getD 0
/-- axolotl/groups/state/senderkeystate.py:52-54 -/
def getSenderChainKey (s : SenderKeyState) : SenderChainKey :=
  let c := s.senderChainKey.getD {}
  { iteration := c.iteration.getD 0, chainKey := c.seed.getD [] }
/-- axolotl/groups/state/senderkeystate.py:56-58 -/
def setSenderChainKey (s : SenderKeyState) (c : SenderChainKey) : Res SenderKeyState := do
  let i ← chkU32 c.iteration
  .ok { s with senderChainKey := some { iteration := some i, seed := some c.chainKey } }
/-- axolotl/groups/state/senderkeystate.py:60-61 -/
def getSigningKeyPublic (s : SenderKeyState) : Res ECPub :=
  Curve.decodePoint ((s.senderSigningKey.getD {}).pub.getD [])
/-- axolotl/groups/state/senderkeystate.py:63-64 -/
def getSigningKeyPrivate (s : SenderKeyState) : ECPriv :=
  Curve.decodePrivatePoint ((s.senderSigningKey.getD {}).priv.getD [])
/-- axolotl/groups/state/senderkeystate.py:66-71 -/
def hasSenderMessageKey (s : SenderKeyState) (iteration : Nat) : Bool :=
  s.senderMessageKeys.any fun k => k.iteration.getD 0 == iteration
/-- axolotl/groups/state/senderkeystate.py:73-77 -/
def addSenderMessageKey (s : SenderKeyState) (k : SenderMessageKey) : Res SenderKeyState := do
  let i ← chkU32 k.iteration
  .ok { s with senderMessageKeys := s.senderMessageKeys ++ [{ iteration := some i, seed := some k.seed }] }

/-- The loop of axolotl/groups/state/senderkeystate.py:83-88. -/
def takeKey (iteration : Nat) : List SenderSeedS → Option (SenderSeedS × List SenderSeedS)
  | [] => none
  | k :: rest =>
    if k.iteration.getD 0 = iteration then some (k, rest)
    else (takeKey iteration rest).map fun p => (p.1, k :: p.2)

/-- axolotl/groups/state/senderkeystate.py:79-93; `None` is `none`. -/
def removeSenderMessageKey (s : SenderKeyState) (iteration : Nat) :
    Option SenderMessageKey × SenderKeyState :=
  match takeKey iteration s.senderMessageKeys with
  | none => (none, s)
  | some (k, rest) =>
    (some (SenderMessageKey.mk' (k.iteration.getD 0) (k.seed.getD [])),
     { s with senderMessageKeys := rest })

end SenderKeyState

/-- axolotl/groups/state/senderkeyrecord.py:8-17; the object is its list of states. -/
structure SenderKeyRecord where
  senderKeyStates : List SenderKeyState := []
  deriving DecidableEq, Repr

namespace SenderKeyRecord

/-- axolotl/groups/state/senderkeyrecord.py:20-21 -/
def isEmpty (r : SenderKeyRecord) : Bool := r.senderKeyStates.length == 0

/-- axolotl/groups/state/senderkeyrecord.py:23-28: no id given -/
def getFirstState (r : SenderKeyRecord) : Res SenderKeyState :=
  match r.senderKeyStates with
  | s :: _ => .ok s
  | [] => .error .invalidKeyId

/-- The loop of axolotl/groups/state/senderkeyrecord.py:30-33: position and state of the first match. -/
def findState (keyId : Nat) : List SenderKeyState → Nat → Res (SenderKeyState × Nat)
  | [], _ => .error .invalidKeyId
  | s :: rest, i => if SenderKeyState.getKeyId s = keyId then .ok (s, i) else findState keyId rest (i + 1)

/-- axolotl/groups/state/senderkeyrecord.py:29-33: id given -/
def getStateById (r : SenderKeyRecord) (keyId : Nat) : Res (SenderKeyState × Nat) :=
  findState keyId r.senderKeyStates 0

/-- The state object is shared with the record: mutating it changes the record. -/
def replace (r : SenderKeyRecord) (i : Nat) (s : SenderKeyState) : SenderKeyRecord :=
  { senderKeyStates := r.senderKeyStates.set i s }

/-- axolotl/groups/state/senderkeyrecord.py:35-42 -/
def addSenderKeyState (r : SenderKeyRecord) (id iteration : Nat) (chainKey : Bytes) (pub : ECPub) :
    Res SenderKeyRecord := do
  let s ← SenderKeyState.mk' id iteration chainKey pub none
  .ok { senderKeyStates := r.senderKeyStates ++ [s] }

/-- axolotl/groups/state/senderkeyrecord.py:44-52 -/
def setSenderKeyState (_r : SenderKeyRecord) (id iteration : Nat) (chainKey : Bytes) (kp : KeyPair) :
    Res SenderKeyRecord := do
  let s ← SenderKeyState.mk' id iteration chainKey kp.pub (some kp.priv)
  .ok { senderKeyStates := [s] }

/-- axolotl/groups/state/senderkeyrecord.py:54-60 -/
def serialize (r : SenderKeyRecord) : Bytes :=
  serializeWith SenderKeyRecordS.toFields { senderKeyStates := r.senderKeyStates }

/-- axolotl/groups/state/senderkeyrecord.py:9-17; an empty string is falsy and gives an empty record -/
def ofSerialized (bs : Bytes) : Res SenderKeyRecord :=
  if bs = [] then .ok {}
  else do
    let r ← parseWith SenderKeyRecordS.ofFields bs
    .ok { senderKeyStates := r.senderKeyStates }

end SenderKeyRecord

/-- axolotl/axolotladdress.py:1-10 -/
structure AxolotlAddress where
  name : String
  deviceId : Nat
  deriving DecidableEq, Repr

namespace AxolotlAddress
/-- axolotl/axolotladdress.py:12-13 -/
def toStr (a : AxolotlAddress) : String := a.name ++ ";" ++ toString a.deviceId
/-- axolotl/axolotladdress.py:24-25; `h` is Python's (per-process) string hash, on non-negative values. -/
def hash (h : String → Nat) (a : AxolotlAddress) : Nat := h a.name ^^^ a.deviceId
/-- axolotl/axolotladdress.py:15-22 between two `AxolotlAddress`es -/
def eq (a b : AxolotlAddress) : Bool := a.name == b.name && a.deviceId == b.deviceId
end AxolotlAddress

/-- axolotl/groups/senderkeyname.py:1-10 -/
structure SenderKeyName where
  groupId : String
  sender : AxolotlAddress
  deriving DecidableEq, Repr

namespace SenderKeyName
/-- axolotl/groups/senderkeyname.py:12-13 -/
def serialize (n : SenderKeyName) : String :=
  n.groupId ++ "::" ++ n.sender.name ++ "::" ++ toString n.sender.deviceId
/-- axolotl/groups/senderkeyname.py:21-22 -/
def hash (h : String → Nat) (n : SenderKeyName) : Nat := h n.groupId ^^^ n.sender.hash h
/-- axolotl/groups/senderkeyname.py:15-19 between two `SenderKeyName`s -/
def eq (a b : SenderKeyName) : Bool := a.groupId == b.groupId && a.sender.eq b.sender
end SenderKeyName

/-- The sender-key store, axolotl/tests/groups/inmemorysenderkeystore.py:7-18: a `dict` keyed by
`SenderKeyName`, i.e. by its `__eq__` (all fields).  A missing entry loads as an empty record. -/
abbrev GroupStore := SenderKeyName → SenderKeyRecord

def GroupStore.store (g : GroupStore) (n : SenderKeyName) (r : SenderKeyRecord) : GroupStore :=
  fun x => if x = n then r else g x

/-- What a group call did: at most one store of the named record, then the result. -/
structure GOutcome (α : Type) where
  stored : Option SenderKeyRecord
  result : Res α

/-- The store after the call. -/
def GOutcome.final {α : Type} (o : GOutcome α) (g : GroupStore) (n : SenderKeyName) : GroupStore :=
  match o.stored with
  | none => g
  | some r => g.store n r

namespace GroupCipher

/-- axolotl/groups/groupcipher.py:26-35 -/
def encryptWithRecord (record : SenderKeyRecord) (paddedPlaintext : Bytes) (rand : Bytes) :
    Res (SenderKeyMessage × SenderKeyRecord) := do
  let st ← record.getFirstState
  let senderKey := (SenderKeyState.getSenderChainKey st).getSenderMessageKey
  let ciphertext ← AES.encrypt senderKey.cipherKey senderKey.iv paddedPlaintext
  let m ← SenderKeyMessage.create (SenderKeyState.getKeyId st) senderKey.iteration ciphertext
    (SenderKeyState.getSigningKeyPrivate st) rand
  let st ← SenderKeyState.setSenderChainKey st (SenderKeyState.getSenderChainKey st).getNext
  .ok (m, record.replace 0 st)

/-- axolotl/groups/groupcipher.py:39-40 -/
def wrapNoSession {α : Type} : Res α → Res α
  | .error .invalidKeyId => .error .noSession
  | r => r

/-- axolotl/groups/groupcipher.py:20-40; `rand` is the signature randomness. -/
def encrypt (g : GroupStore) (n : SenderKeyName) (paddedPlaintext : Bytes) (rand : Bytes) :
    GOutcome Bytes :=
  match encryptWithRecord (g n) paddedPlaintext rand with
  | .ok (m, r) => ⟨some r, .ok m.serialized⟩
  | .error e => ⟨none, wrapNoSession (.error e)⟩

/-- The `while` loop of axolotl/groups/groupcipher.py:78-80, `k = iteration - chainKey.iteration`
rounds. -/
def skipLoop : Nat → SenderKeyState → SenderChainKey → Res (SenderKeyState × SenderChainKey)
  | 0, s, c => .ok (s, c)
  | k + 1, s, c => do
    let s ← SenderKeyState.addSenderMessageKey s c.getSenderMessageKey
    skipLoop k s c.getNext

/-- axolotl/groups/groupcipher.py:65-83.  The test on line 75 subtracts the other way round than its
counterpart in axolotl/sessioncipher.py:175: it is modelled as written. -/
def getSenderKey (s : SenderKeyState) (iteration : Nat) : Res (SenderMessageKey × SenderKeyState) :=
  let c := SenderKeyState.getSenderChainKey s
  if c.iteration > iteration then
    if SenderKeyState.hasSenderMessageKey s iteration then
      match SenderKeyState.removeSenderMessageKey s iteration with
      | (some k, s) => .ok (k, s)
      | (none, _) => .error .typeError
    else .error .duplicateMessage
  else if (c.iteration : Int) - iteration > 2000 then .error .invalidMessage
  else do
    let r ← skipLoop (iteration - c.iteration) s c
    let s ← SenderKeyState.setSenderChainKey r.1 r.2.getNext
    .ok (r.2.getSenderMessageKey, s)

/-- axolotl/groups/groupcipher.py:85-96 -/
def getPlainText (iv key ciphertext : Bytes) : Res Bytes :=
  SenderKeyMessage.wrapAll (AES.decrypt key iv ciphertext)

/-- axolotl/groups/groupcipher.py:48-57: the body between load and store -/
def decryptWithRecord (record : SenderKeyRecord) (bytes : Bytes) : Res (Bytes × SenderKeyRecord) :=
  if record.isEmpty then .error .noSession
  else do
    let m ← SenderKeyMessage.parse bytes
    let st ← record.getStateById m.keyId
    let pub ← SenderKeyState.getSigningKeyPublic st.1
    m.verifySignature pub
    let k ← getSenderKey st.1 m.iteration
    let pt ← getPlainText k.1.iv k.1.cipherKey m.ciphertext
    .ok (pt, record.replace st.2 k.2)

/-- axolotl/groups/groupcipher.py:62-63 -/
def wrapInvalid {α : Type} : Res α → Res α
  | .error .invalidKey => .error .invalidMessage
  | .error .invalidKeyId => .error .invalidMessage
  | r => r

/-- axolotl/groups/groupcipher.py:42-63 -/
def decrypt (g : GroupStore) (n : SenderKeyName) (bytes : Bytes) : GOutcome Bytes :=
  match decryptWithRecord (g n) bytes with
  | .ok (pt, r) => ⟨some r, .ok pt⟩
  | .error e => ⟨none, wrapInvalid (.error e)⟩

end GroupCipher

namespace GroupSessionBuilder

/-- axolotl/groups/groupsessionbuilder.py:20: the store, reached when adding the state raised nothing -/
def storeAdded : Res SenderKeyRecord → GOutcome Unit
  | .ok r => ⟨some r, .ok ()⟩
  | .error e => ⟨none, .error e⟩

/-- axolotl/groups/groupsessionbuilder.py:10-20 -/
def process (g : GroupStore) (n : SenderKeyName) (m : SenderKeyDistributionMessage) : GOutcome Unit :=
  storeAdded ((g n).addSenderKeyState m.id m.iteration m.chainKey m.signatureKey)

/-- Randomness of `create`: axolotl/util/keyhelper.py:88-98. -/
structure CreateRand where
  keyId : Nat
  senderKey : Bytes
  signSeed : Bytes

/-- axolotl/groups/groupsessionbuilder.py:43-44 -/
def wrapAssert {α : Type} : Res α → Res α
  | .error .invalidKey => .error .assertionError
  | .error .invalidKeyId => .error .assertionError
  | r => r

/-- axolotl/groups/groupsessionbuilder.py:37-42 -/
def distributionOf (r : SenderKeyRecord) : Res SenderKeyDistributionMessage := do
  let st ← r.getFirstState
  let pub ← SenderKeyState.getSigningKeyPublic st
  SenderKeyDistributionMessage.create (SenderKeyState.getKeyId st)
    (SenderKeyState.getSenderChainKey st).iteration (SenderKeyState.getSenderChainKey st).chainKey pub

/-- axolotl/groups/groupsessionbuilder.py:35-42: store the new record, then build its message -/
def storeCreated : Res SenderKeyRecord → GOutcome SenderKeyDistributionMessage
  | .error e => ⟨none, wrapAssert (.error e)⟩
  | .ok r => ⟨some r, wrapAssert (distributionOf r)⟩

/-- axolotl/groups/groupsessionbuilder.py:23-44 -/
def create (g : GroupStore) (n : SenderKeyName) (rnd : CreateRand) :
    GOutcome SenderKeyDistributionMessage :=
  if (g n).isEmpty then
    storeCreated ((g n).setSenderKeyState rnd.keyId 0 rnd.senderKey (Curve.generateKeyPair rnd.signSeed))
  else ⟨none, wrapAssert (distributionOf (g n))⟩

end GroupSessionBuilder
end Axolotl
