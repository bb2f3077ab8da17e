import Verif.Model.Keys

/-! # Wire messages: axolotl/protocol/*.py -/

namespace Axolotl
variable [Crypto]

namespace CiphertextMessage
/-- axolotl/protocol/ciphertextmessage.py:9-10 -/
def UNSUPPORTED_VERSION : Nat := 1
def CURRENT_VERSION : Nat := 3
/-- axolotl/protocol/ciphertextmessage.py:12-15 -/
def WHISPER_TYPE : Nat := 2
def PREKEY_TYPE : Nat := 3
def SENDERKEY_TYPE : Nat := 4
def SENDERKEY_DISTRIBUTION_TYPE : Nat := 5
/-- axolotl/protocol/ciphertextmessage.py:17-18 -/
def ENCRYPTED_MESSAGE_OVERHEAD : Nat := 53
end CiphertextMessage

open CiphertextMessage ByteUtil

/-- axolotl/protocol/whispermessage.py:15-109: the attributes of a `WhisperMessage` object. -/
structure WhisperMessage where
  serialized : Bytes
  senderRatchetKey : ECPub
  messageVersion : Nat
  counter : Nat
  previousCounter : Nat
  ciphertext : Bytes
  deriving DecidableEq, Repr

namespace WhisperMessage

/-- axolotl/protocol/whispermessage.py:16 -/
def MAC_LENGTH : Nat := 8

/-- axolotl/protocol/whispermessage.py:90-98 -/
def getMac (messageVersion : Nat) (senderIdentityKey receiverIdentityKey : ECPub) (macKey : Bytes)
    (serialized : Bytes) : Bytes :=
  let ids := if messageVersion ≥ 3 then
    Curve.serializePoint senderIdentityKey ++ Curve.serializePoint receiverIdentityKey else []
  trim (Crypto.hmac macKey (ids ++ serialized)) MAC_LENGTH

/-- axolotl/protocol/whispermessage.py:52-66: the constructor used by `encrypt`. -/
def create (messageVersion : Nat) (macKey : Bytes) (senderRatchetKey : ECPub)
    (counter previousCounter : Nat) (ciphertext : Bytes)
    (senderIdentityKey receiverIdentityKey : ECPub) : Res WhisperMessage := do
  let version := intsToByteHighAndLow messageVersion CURRENT_VERSION
  let c ← chkU32 counter
  let pc ← chkU32 previousCounter
  let message := serializeWith WhisperMessageP.toFields
    { ratchetKey := some (Curve.serializePoint senderRatchetKey), counter := some c,
      previousCounter := some pc, ciphertext := some ciphertext }
  let mac := getMac messageVersion senderIdentityKey receiverIdentityKey macKey (version :: message)
  .ok { serialized := version :: (message ++ mac), senderRatchetKey := senderRatchetKey,
        counter := counter, previousCounter := previousCounter, ciphertext := ciphertext,
        messageVersion := messageVersion }

/-- `except InvalidKeyException as e: raise InvalidMessageException(e)`
(axolotl/protocol/whispermessage.py:49-50, axolotl/protocol/keyexchangemessage.py:56-57). -/
def wrapInvalidKey {α : Type} : Res α → Res α
  | .error .invalidKey => .error .invalidMessage
  | r => r

/-- axolotl/protocol/whispermessage.py:23-48: the `try` body, for non-empty `serialized`.
A `bytes` field that is absent or empty is falsy; `counter is None` is never true for a protobuf
field (absent reads as 0). -/
def parseBody (serialized : Bytes) : Res WhisperMessage :=
  let parts := split3 serialized 1 ((serialized.length : Int) - 1 - MAC_LENGTH) MAC_LENGTH
  match parts.1 with
  | [] => .error .indexError
  | version :: _ =>
    if highBitsToInt version ≤ UNSUPPORTED_VERSION then .error .legacyMessage
    else if highBitsToInt version > CURRENT_VERSION then .error .invalidMessage
    else do
      let m ← parseWith WhisperMessageP.ofFields parts.2.1
      if m.ciphertext.getD [] = [] ∨ m.ratchetKey.getD [] = [] then .error .invalidMessage
      else do
        let rk ← Curve.decodePoint (m.ratchetKey.getD [])
        .ok { serialized := serialized, senderRatchetKey := rk,
              messageVersion := highBitsToInt version, counter := m.counter.getD 0,
              previousCounter := m.previousCounter.getD 0, ciphertext := m.ciphertext.getD [] }

/-- axolotl/protocol/whispermessage.py:18-50 `WhisperMessage(serialized=...)`.  An empty string is falsy
and falls into the other branch, where `None << 4` is a `TypeError`. -/
def parse (serialized : Bytes) : Res WhisperMessage :=
  if serialized = [] then .error .typeError else wrapInvalidKey (parseBody serialized)

/-- axolotl/protocol/whispermessage.py:80-88 -/
def verifyMac (m : WhisperMessage) (messageVersion : Nat)
    (senderIdentityKey receiverIdentityKey : ECPub) (macKey : Bytes) : Res Unit :=
  let parts := split2 m.serialized ((m.serialized.length : Int) - MAC_LENGTH) MAC_LENGTH
  let ourMac := getMac messageVersion senderIdentityKey receiverIdentityKey macKey parts.1
  let theirMac := parts.2
  if ourMac ≠ theirMac then .error .invalidMessage else .ok ()

/-- axolotl/protocol/whispermessage.py:106-109 -/
def isLegacy (message : Bytes) : Bool :=
  match message with
  | [] => false
  | b :: _ => highBitsToInt b ≤ UNSUPPORTED_VERSION

end WhisperMessage

/-- axolotl/protocol/prekeywhispermessage.py:17-102: attributes of the object.  `preKeyId = none` is
Python `None`. -/
structure PreKeyWhisperMessage where
  serialized : Bytes
  version : Nat
  registrationId : Nat
  preKeyId : Option Nat
  signedPreKeyId : Nat
  baseKey : ECPub
  identityKey : ECPub
  message : WhisperMessage
  deriving DecidableEq, Repr

namespace PreKeyWhisperMessage

/-- axolotl/protocol/prekeywhispermessage.py:55-75 -/
def create (messageVersion registrationId : Nat) (preKeyId : Option Nat) (signedPreKeyId : Int)
    (baseKey identityKey : ECPub) (message : WhisperMessage) : Res PreKeyWhisperMessage := do
  let spk ← chkU32 signedPreKeyId
  let reg ← chkU32 registrationId
  let pk ← match preKeyId with
    | none => .ok none
    | some i => do let i ← chkU32 i; Except.ok (some i)
  let versionByte := intsToByteHighAndLow messageVersion CURRENT_VERSION
  let messageBytes := serializeWith PreKeyWhisperMessageP.toFields
    { signedPreKeyId := some spk, baseKey := some (Curve.serializePoint baseKey),
      identityKey := some (Curve.serializePoint identityKey), message := some message.serialized,
      registrationId := some reg, preKeyId := pk }
  .ok { serialized := versionByte :: messageBytes, version := messageVersion, registrationId := reg,
        preKeyId := pk, signedPreKeyId := spk, baseKey := baseKey, identityKey := identityKey,
        message := message }

/-- axolotl/protocol/prekeywhispermessage.py:51-52 -/
def wrap {α : Type} : Res α → Res α
  | .error .invalidKey => .error .invalidMessage
  | .error .legacyMessage => .error .invalidMessage
  | .error .decodeError => .error .invalidMessage
  | r => r

/-- axolotl/protocol/prekeywhispermessage.py:23-50: the `try` body.  `preKeyId` and `signedPreKeyId`
read an absent protobuf field as 0, never as `None`. -/
def parseBody (serialized : Bytes) : Res PreKeyWhisperMessage :=
  match serialized with
  | [] => .error .indexError
  | v :: rest =>
    if highBitsToInt v > CURRENT_VERSION then .error .invalidVersion
    else if highBitsToInt v < CURRENT_VERSION then .error .legacyMessage
    else do
      let m ← parseWith PreKeyWhisperMessageP.ofFields rest
      if m.baseKey.getD [] = [] ∨ m.identityKey.getD [] = [] ∨ m.message.getD [] = [] then
        .error .invalidMessage
      else do
        let bk ← Curve.decodePoint (m.baseKey.getD [])
        let ik ← Curve.decodePoint (m.identityKey.getD [])
        let inner ← WhisperMessage.parse (m.message.getD [])
        .ok { serialized := serialized, version := highBitsToInt v,
              registrationId := m.registrationId.getD 0, preKeyId := some (m.preKeyId.getD 0),
              signedPreKeyId := m.signedPreKeyId.getD 0, baseKey := bk, identityKey := ik,
              message := inner }

/-- axolotl/protocol/prekeywhispermessage.py:18-52 `PreKeyWhisperMessage(serialized=...)`. -/
def parse (serialized : Bytes) : Res PreKeyWhisperMessage :=
  if serialized = [] then .error .typeError else wrap (parseBody serialized)

end PreKeyWhisperMessage

/-- axolotl/protocol/keyexchangemessage.py:14-117 -/
structure KeyExchangeMessage where
  serialized : Bytes
  version : Nat
  supportedVersion : Nat
  sequence : Nat
  flags : Nat
  baseKey : ECPub
  baseKeySignature : Bytes
  ratchetKey : ECPub
  identityKey : ECPub
  deriving DecidableEq, Repr

namespace KeyExchangeMessage

/-- axolotl/protocol/keyexchangemessage.py:15-17 -/
def INITIATE_FLAG : Nat := 0x01
def RESPONSE_FLAG : Nat := 0x02
def SIMULTAENOUS_INITIATE_FLAG : Nat := 0x04

/-- axolotl/protocol/keyexchangemessage.py:59-78 -/
def create (messageVersion sequence flags : Nat) (baseKey : ECPub) (baseKeySignature : Bytes)
    (ratchetKey identityKey : ECPub) : Res KeyExchangeMessage := do
  let version := intsToByteHighAndLow messageVersion CURRENT_VERSION
  let id ← chkU32 (((sequence <<< 5) ||| flags : Nat) : Int)
  let body := serializeWith KeyExchangeMessageP.toFields
    { id := some id, baseKey := some (Curve.serializePoint baseKey),
      ratchetKey := some (Curve.serializePoint ratchetKey),
      identityKey := some (Curve.serializePoint identityKey),
      baseKeySignature := if messageVersion ≥ 3 then some baseKeySignature else none }
  .ok { serialized := version :: body, version := messageVersion, supportedVersion := CURRENT_VERSION,
        sequence := sequence, flags := flags, baseKey := baseKey, baseKeySignature := baseKeySignature,
        ratchetKey := ratchetKey, identityKey := identityKey }

/-- axolotl/protocol/keyexchangemessage.py:33-54: the `try` body. -/
def parseBody (serialized : Bytes) : Res KeyExchangeMessage :=
  let parts := split2 serialized 1 ((serialized.length : Int) - 1)
  match parts.1 with
  | [] => .error .indexError
  | v :: _ =>
    if highBitsToInt v < CURRENT_VERSION then .error .legacyMessage
    else if highBitsToInt v > CURRENT_VERSION then .error .invalidVersion
    else do
      let m ← parseWith KeyExchangeMessageP.ofFields parts.2
      match m.id, m.baseKey, m.ratchetKey, m.identityKey, m.baseKeySignature with
      | some id, some bk, some rk, some ik, some sig => do
        let bk ← Curve.decodePoint bk
        let rk ← Curve.decodePoint rk
        let ik ← Curve.decodePoint ik
        .ok { serialized := serialized, version := highBitsToInt v, supportedVersion := lowBitsToInt v,
              sequence := id >>> 5, flags := id &&& 0x1f, baseKey := bk, baseKeySignature := sig,
              ratchetKey := rk, identityKey := ik }
      | _, _, _, _, _ => .error .invalidMessage

/-- axolotl/protocol/keyexchangemessage.py:19-57 `KeyExchangeMessage(serialized=...)`. -/
def parse (serialized : Bytes) : Res KeyExchangeMessage :=
  if serialized = [] then .error .typeError else WhisperMessage.wrapInvalidKey (parseBody serialized)

/-- axolotl/protocol/keyexchangemessage.py:101-108 -/
def isResponse (m : KeyExchangeMessage) : Bool := (m.flags &&& RESPONSE_FLAG) != 0
def isInitiate (m : KeyExchangeMessage) : Bool := (m.flags &&& INITIATE_FLAG) != 0
def isResponseForSimultaneousInitiate (m : KeyExchangeMessage) : Bool :=
  (m.flags &&& SIMULTAENOUS_INITIATE_FLAG) != 0

end KeyExchangeMessage

/-- axolotl/protocol/senderkeymessage.py:12-104 -/
structure SenderKeyMessage where
  serialized : Bytes
  messageVersion : Nat
  keyId : Nat
  iteration : Nat
  ciphertext : Bytes
  deriving DecidableEq, Repr

namespace SenderKeyMessage

/-- axolotl/protocol/senderkeymessage.py:13 -/
def SIGNATURE_LENGTH : Nat := 64

/-- axolotl/protocol/senderkeymessage.py:49-64; `rand` is the signature randomness.  A `ValueError`
from the signing primitive propagates. -/
def create (keyId iteration : Nat) (ciphertext : Bytes) (signatureKey : ECPriv) (rand : Bytes) :
    Res SenderKeyMessage := do
  let version := intsToByteHighAndLow CURRENT_VERSION CURRENT_VERSION
  let id ← chkU32 keyId
  let it ← chkU32 iteration
  let message := serializeWith SenderKeyMessageP.toFields
    { id := some id, iteration := some it, ciphertext := some ciphertext }
  let signature ← Curve.calculateSignature rand signatureKey (version :: message)
  .ok { serialized := version :: (message ++ signature), messageVersion := CURRENT_VERSION,
        keyId := keyId, iteration := iteration, ciphertext := ciphertext }

/-- `except Exception as e: raise InvalidMessageException(e)`
(axolotl/protocol/senderkeymessage.py:47-48, axolotl/protocol/senderkeydistributionmessage.py:52-53). -/
def wrapAll {α : Type} : Res α → Res α
  | .error _ => .error .invalidMessage
  | r => r

/-- axolotl/protocol/senderkeymessage.py:20-46: the `try` body. -/
def parseBody (serialized : Bytes) : Res SenderKeyMessage :=
  let parts := split3 serialized 1 ((serialized.length : Int) - 1 - SIGNATURE_LENGTH) SIGNATURE_LENGTH
  match parts.1 with
  | [] => .error .indexError
  | v :: _ =>
    if highBitsToInt v < 3 then .error .legacyMessage
    else if highBitsToInt v > CURRENT_VERSION then .error .invalidMessage
    else do
      let m ← parseWith SenderKeyMessageP.ofFields parts.2.1
      .ok { serialized := serialized, messageVersion := highBitsToInt v, keyId := m.id.getD 0,
            iteration := m.iteration.getD 0, ciphertext := m.ciphertext.getD [] }

/-- axolotl/protocol/senderkeymessage.py:15-48 `SenderKeyMessage(serialized=...)`; an empty string
fails the `assert`. -/
def parse (serialized : Bytes) : Res SenderKeyMessage :=
  if serialized = [] then .error .assertionError else wrapAll (parseBody serialized)

/-- axolotl/protocol/senderkeymessage.py:76-88 -/
def verifySignature (m : SenderKeyMessage) (signatureKey : ECPub) : Res Unit := do
  let parts := split2 m.serialized ((m.serialized.length : Int) - SIGNATURE_LENGTH) SIGNATURE_LENGTH
  let ok ← Curve.verifySignature signatureKey parts.1 parts.2
  if ok then .ok () else .error .invalidMessage

end SenderKeyMessage

/-- axolotl/protocol/senderkeydistributionmessage.py:10-84 -/
structure SenderKeyDistributionMessage where
  serialized : Bytes
  id : Nat
  iteration : Nat
  chainKey : Bytes
  signatureKey : ECPub
  deriving DecidableEq, Repr

namespace SenderKeyDistributionMessage

/-- axolotl/protocol/senderkeydistributionmessage.py:54-66 -/
def create (id iteration : Nat) (chainKey : Bytes) (signatureKey : ECPub) :
    Res SenderKeyDistributionMessage := do
  let version := intsToByteHighAndLow CURRENT_VERSION CURRENT_VERSION
  let id' ← chkU32 id
  let it ← chkU32 iteration
  let message := serializeWith SenderKeyDistributionMessageP.toFields
    { id := some id', iteration := some it, chainKey := some chainKey,
      signingKey := some (Curve.serializePoint signatureKey) }
  .ok { serialized := version :: message, id := id, iteration := iteration, chainKey := chainKey,
        signatureKey := signatureKey }

/-- axolotl/protocol/senderkeydistributionmessage.py:25-50: the `try` body. -/
def parseBody (serialized : Bytes) : Res SenderKeyDistributionMessage :=
  let parts := split2 serialized 1 ((serialized.length : Int) - 1)
  match parts.1 with
  | [] => .error .indexError
  | v :: _ =>
    if highBitsToInt v < 3 then .error .legacyMessage
    else if highBitsToInt v > CURRENT_VERSION then .error .invalidMessage
    else do
      let m ← parseWith SenderKeyDistributionMessageP.ofFields parts.2
      let sk ← Curve.decodePoint (m.signingKey.getD [])
      .ok { serialized := serialized, id := m.id.getD 0, iteration := m.iteration.getD 0,
            chainKey := m.chainKey.getD [], signatureKey := sk }

/-- axolotl/protocol/senderkeydistributionmessage.py:11-53; an empty string fails the `assert`. -/
def parse (serialized : Bytes) : Res SenderKeyDistributionMessage :=
  if serialized = [] then .error .assertionError else SenderKeyMessage.wrapAll (parseBody serialized)

end SenderKeyDistributionMessage

end Axolotl
