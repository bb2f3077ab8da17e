import Verif.Spec.Version2
import Verif.Spec.Format
import Verif.Spec.Conversation

/-!
# Messages and conversations of version-2 sessions
-/

namespace Axolotl.Spec
variable [C : Crypto]

/-- Version byte 0x23 and the four fields of a session message, without the MAC. -/
def sessionMessage2 (ratchetKey : ECPub) (counter previous : Nat) (ciphertext : Bytes) : Bytes :=
  0x23 :: (bytesField 0x0A (5 :: ratchetKey) ++ numField 0x10 counter ++ numField 0x18 previous ++
    bytesField 0x22 ciphertext)

/-- Cipher key, MAC key and IV that a version-2 state offers for message number `n` of the peer's ratchet key `eph`. -/
inductive MessageKey2 (s : SessionS) (eph : ECPub) (n : Nat) : Bytes → Bytes → Bytes → Prop
  /-- keys stored for a skipped message -/
  | stored {c : ChainS} {e : MessageKeyS} : c ∈ s.receiverChains → KeyOf c.senderRatchetKey eph → e ∈ c.messageKeys →
      e.index.getD 0 = n → MessageKey2 s eph n (e.cipherKey.getD []) (e.macKey.getD []) (e.iv.getD [])
  /-- keys further along an existing receive chain -/
  | ahead {c : ChainS} {k : Bytes} : c ∈ s.receiverChains → KeyOf c.senderRatchetKey eph →
      (c.chainKey.getD {}).index.getD 0 ≤ n →
      k = chainAt ((c.chainKey.getD {}).key.getD []) (n - (c.chainKey.getD {}).index.getD 0) →
      MessageKey2 s eph n (cipherKeyOf2 k) (macKeyOf2 k) (ivOf2 k)
  /-- keys of the receive chain that a ratchet step with `eph` opens -/
  | ratchet {c : ChainS} {secret k : Bytes} : s.senderChain = some c →
      C.dh (c.senderRatchetKeyPrivate.getD []) eph = some secret →
      k = chainAt (ratchetChain2 (s.rootKey.getD []) secret) n →
      MessageKey2 s eph n (cipherKeyOf2 k) (macKeyOf2 k) (ivOf2 k)

/-- A chain that has not been used yet. -/
def freshChain (pub : ECPub) (priv : Option ECPriv) (key : Bytes) : ChainS :=
  { senderRatchetKey := some (5 :: pub), senderRatchetKeyPrivate := priv,
    chainKey := some { index := some 0, key := some key } }

/-- A version-2 state of the owner of `me` with the owner of `you`, with no setup message outstanding. -/
structure Between2 (me you : ECPub) (s : SessionS) : Prop where
  version : versionOf s = 2
  me : s.localIdentityPublic = some (5 :: me)
  you : s.remoteIdentityPublic = some (5 :: you)
  settled : s.pendingPreKey = none
  previous : s.previousCounter.getD 0 < 2 ^ 32

/-- Two stores hold the two ends of a version-2 session: the answering side (`false`) has its ratchet key, root key and first
sending chain; the initiator (`true`) has that chain for receiving, and has taken one ratchet step with a key of its own. -/
inductive Start2 : Conv → Net → Prop
  | mk {wA wB : World} {ab ba : Address} {rA rB : SessionRecord} {idA idB : ECPub} {kp : KeyPair}
      {seed root chain secret : Bytes} :
      wA.sessions ab = some rA → wB.sessions ba = some rB →
      Between2 idA idB rA.sessionState → Between2 idB idA rB.sessionState →
      idA.length = 32 → idB.length = 32 → GoodPair kp → seed.length = 32 →
      C.dh (C.genPriv seed) kp.pub = some secret →
      rB.sessionState.rootKey = some root → rB.sessionState.senderChain = some (freshChain kp.pub (some kp.priv) chain) →
      rB.sessionState.receiverChains = [] →
      rA.sessionState.rootKey = some (ratchetRoot2 root secret) →
      rA.sessionState.senderChain =
        some (freshChain (C.genPub (C.genPriv seed)) (some (C.genPriv seed)) (ratchetChain2 root secret)) →
      rA.sessionState.receiverChains = [freshChain kp.pub none chain] →
      kp.pub ≠ C.genPub (C.genPriv seed) →
      Start2
        { addr := fun s => if s then ab else ba, start := fun s => if s then [kp.pub] else [], waits := false,
          preKeyId := none }
        { world := fun s => if s then wA else wB, sent := fun _ => [], accepted := fun _ => [],
          keys := [kp.pub, C.genPub (C.genPriv seed)] }

/-- The state with other identities written into it. -/
def rebind (me you : ECPub) (s : SessionS) : SessionS :=
  { s with localIdentityPublic := some (5 :: me), remoteIdentityPublic := some (5 :: you) }

/-- The record with other identities written into all its states. -/
def rebindAll (me you : ECPub) (r : SessionRecord) : SessionRecord :=
  { r with sessionState := rebind me you r.sessionState, previousStates := r.previousStates.map (rebind me you) }

end Axolotl.Spec
