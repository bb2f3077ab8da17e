import Verif.Spec.History
import Verif.Spec.Group

/-!
# Stores that keep bytes

The reference stores (axolotl/tests/inmemorysessionstore.py:11-26, axolotl/tests/inmemoryprekeystore.py:12-23,
axolotl/tests/inmemorysignedprekeystore.py:10-27) keep what `serialize()` returned and build a new object on every load.
Here the calls run against such stores.  A cell whose bytes do not parse counts as missing (simplification: Python raises
`DecodeError` on loading it); `C50` shows that no such cell ever arises.
-/

namespace Axolotl
variable [Crypto]

/-- One party's stores, with serialised records. -/
structure ByteWorld where
  identityKeyPair : KeyPair
  registrationId : Int
  policy : (String → Option ECPub) → String → ECPub → Bool
  identities : String → Option ECPub
  sessions : Address → Option Bytes
  preKeys : Nat → Option Bytes
  signedPreKeys : Nat → Option Bytes

/-- What `load` makes of a stored cell. -/
def ByteWorld.parsed {α : Type} (parse : Bytes → Res α) : Option Bytes → Option α
  | none => none
  | some bs => match parse bs with
    | .ok a => some a
    | .error _ => none

/-- The records one gets by loading from the byte stores. -/
def ByteWorld.view (b : ByteWorld) : World :=
  { identityKeyPair := b.identityKeyPair, registrationId := b.registrationId, policy := b.policy,
    identities := b.identities,
    sessions := fun a => ByteWorld.parsed SessionRecord.ofSerialized (b.sessions a),
    preKeys := fun i => ByteWorld.parsed PreKeyRecord.ofSerialized (b.preKeys i),
    signedPreKeys := fun i => ByteWorld.parsed SignedPreKeyRecord.ofSerialized (b.signedPreKeys i) }

/-- Storing serialises. -/
def ByteWorld.apply (b : ByteWorld) : Write → ByteWorld
  | .session a r => { b with sessions := upd b.sessions a (some r.serialize) }
  | .identity n k => { b with identities := upd b.identities n (some k) }
  | .removePreKey i => { b with preKeys := upd b.preKeys i none }

/-- Run one call: load by parsing, compute, store by serialising. -/
def Call.nextB (b : ByteWorld) (c : Call) : ByteWorld := (c.run b.view).writes.foldl ByteWorld.apply b

/-- The byte stores after a history. -/
def Call.afterB (b : ByteWorld) (cs : List Call) : ByteWorld := cs.foldl Call.nextB b

/-- The replies of a history run against byte stores. -/
def Call.repliesB : ByteWorld → List Call → List (Res Reply)
  | _, [] => []
  | b, c :: cs => (c.run b.view).result :: Call.repliesB (c.nextB b) cs

/-- The byte stores holding the serialisations of given records. -/
def World.toBytes (w : World) : ByteWorld :=
  { identityKeyPair := w.identityKeyPair, registrationId := w.registrationId, policy := w.policy,
    identities := w.identities,
    sessions := fun a => (w.sessions a).map SessionRecord.serialize,
    preKeys := fun i => (w.preKeys i).map PreKeyRecord.serialize,
    signedPreKeys := fun i => (w.signedPreKeys i).map SignedPreKeyRecord.serialize }

/-! ## Groups (axolotl/tests/groups/inmemorysenderkeystore.py:7-18 keeps the record objects; a persistent store keeps
their bytes) -/

/-- A sender-key store with serialised records; a missing entry is the empty string. -/
abbrev ByteGroupStore := SenderKeyName → Bytes

/-- The records one gets by loading. -/
def ByteGroupStore.view (b : ByteGroupStore) : GroupStore := fun n =>
  match SenderKeyRecord.ofSerialized (b n) with
  | .ok r => r
  | .error _ => {}

/-- Run one group call: load by parsing, compute, store by serialising. -/
def GroupCall.nextB (b : ByteGroupStore) (c : GroupCall) : ByteGroupStore :=
  match (c.run b.view).stored with
  | none => b
  | some r => fun x => if x = c.name then r.serialize else b x

/-- The byte store after a history of group calls. -/
def GroupCall.afterB (b : ByteGroupStore) (cs : List GroupCall) : ByteGroupStore := cs.foldl GroupCall.nextB b

/-- The replies of a history of group calls run against a byte store. -/
def GroupCall.repliesB : ByteGroupStore → List GroupCall → List (Res GroupReply)
  | _, [] => []
  | b, c :: cs => (c.run b.view).result :: GroupCall.repliesB (c.nextB b) cs

/-- The byte store holding the serialisations of given records. -/
def GroupStore.toBytes (g : GroupStore) : ByteGroupStore := fun n => (g n).serialize

end Axolotl
