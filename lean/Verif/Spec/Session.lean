import Verif.Spec.Hkdf
import Verif.Spec.History

/-!
# Vocabulary for the session properties

Plain observations of stored session states and the Double-Ratchet key schedule, written with HMAC and
RFC 5869 HKDF only (no functions of the model).
-/

namespace Axolotl.Spec

/-- The send counter of a stored session state. -/
def sendCounter (s : SessionS) : Nat :=
  match s.senderChain with
  | some { chainKey := some k, .. } => k.index.getD 0
  | _ => 0

/-- The chain key the next message will be encrypted with. -/
def sendKey (s : SessionS) : Bytes :=
  match s.senderChain with
  | some { chainKey := some k, .. } => k.key.getD []
  | _ => []

/-- The state with the sending chain key blanked out. -/
def withoutSendKey (s : SessionS) : SessionS :=
  { s with senderChain := s.senderChain.map fun c => { c with chainKey := none } }

/-- Two states of the same session: version, identities, base key and registration ids agree. -/
def SameSession (s s' : SessionS) : Prop :=
  s'.sessionVersion = s.sessionVersion ∧ s'.localIdentityPublic = s.localIdentityPublic ∧
  s'.remoteIdentityPublic = s.remoteIdentityPublic ∧ s'.aliceBaseKey = s.aliceBaseKey ∧
  s'.localRegistrationId = s.localRegistrationId ∧ s'.remoteRegistrationId = s.remoteRegistrationId

/-- All session states of a record, current one first. -/
def states (r : SessionRecord) : List SessionS := r.sessionState :: r.previousStates

/-- Whether a session with this initiator's base key is in the record (version-3 sessions). -/
def knowsBaseKey (r : SessionRecord) (version : Nat) (baseKey : ECPub) : Prop :=
  ∃ s ∈ states r, (match s.sessionVersion with | none => 2 | some 0 => 2 | some v => v) = version ∧
    s.aliceBaseKey.getD [] = 5 :: baseKey

variable [C : Crypto]

/-- Chain key after `n` symmetric ratchet steps. -/
def chainAt (k : Bytes) : Nat → Bytes
  | 0 => k
  | n + 1 => C.hmac (chainAt k n) [0x02]

/-- `"WhisperMessageKeys"` -/
def messageKeysInfo : Bytes :=
  [87, 104, 105, 115, 112, 101, 114, 77, 101, 115, 115, 97, 103, 101, 75, 101, 121, 115]

/-- `"WhisperRatchet"` -/
def ratchetInfo : Bytes := [87, 104, 105, 115, 112, 101, 114, 82, 97, 116, 99, 104, 101, 116]

/-- The 80 bytes of message key material of a chain key. -/
def messageOkm (chainKey : Bytes) : Bytes := hkdf [] (C.hmac chainKey [0x01]) messageKeysInfo 80

/-- Cipher key, MAC key and IV of a chain key. -/
def cipherKeyOf (chainKey : Bytes) : Bytes := (messageOkm chainKey).take 32
def macKeyOf (chainKey : Bytes) : Bytes := ((messageOkm chainKey).drop 32).take 32
def ivOf (chainKey : Bytes) : Bytes := (messageOkm chainKey).drop 64

/-- New root key and chain key of a Diffie-Hellman ratchet step. -/
def ratchetRoot (root secret : Bytes) : Bytes := (hkdf root secret ratchetInfo 64).take 32
def ratchetChain (root secret : Bytes) : Bytes := (hkdf root secret ratchetInfo 64).drop 32

/-- The MAC keys a session state offers for message number `n` of the peer's ratchet key `eph`. -/
inductive MacKey (s : SessionS) (eph : ECPub) (n : Nat) : Bytes → Prop
  /-- a key stored for a skipped message -/
  | stored {c : ChainS} {e : MessageKeyS} : c ∈ s.receiverChains →
      Curve.decodePoint (c.senderRatchetKey.getD []) = .ok eph → e ∈ c.messageKeys →
      e.index.getD 0 = n → MacKey s eph n (e.macKey.getD [])
  /-- a key further along an existing receive chain -/
  | ahead {c : ChainS} {i : Nat} : c ∈ s.receiverChains →
      Curve.decodePoint (c.senderRatchetKey.getD []) = .ok eph →
      (c.chainKey.getD {}).index.getD 0 = i → i ≤ n →
      MacKey s eph n (macKeyOf (chainAt ((c.chainKey.getD {}).key.getD []) (n - i)))
  /-- a key of the receive chain that a ratchet step with `eph` opens -/
  | ratchet {c : ChainS} {secret : Bytes} : s.senderChain = some c →
      C.dh (c.senderRatchetKeyPrivate.getD []) eph = some secret →
      MacKey s eph n (macKeyOf (chainAt (ratchetChain (s.rootKey.getD []) secret) n))

end Axolotl.Spec
