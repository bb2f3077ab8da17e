import Verif.Spec.Grammar

/-!
# Records in storage

The bytes each record is stored as, with literal tag bytes, and what every byte string is read as.  Of `Model/Wire.lean` and
`Model/Protos.lean` only the data types are used.
-/

namespace Axolotl.Spec
open Wire

/-! ## Bytes written -/

/-- An absent field is not written. -/
def opt {α : Type} (write : α → Bytes) : Option α → Bytes
  | none => []
  | some a => write a

/-- The elements of a repeated field one after another. -/
def each {α : Type} (write : α → Bytes) : List α → Bytes
  | [] => []
  | a :: l => write a ++ each write l

/-- A signed number: a negative one in 64-bit two's complement. -/
def signedField (tag : UInt8) (i : Int) : Bytes := numField tag (if 0 ≤ i then i.toNat else (2 ^ 64 + i).toNat)

/-- A truth value. -/
def boolField (tag : UInt8) (b : Bool) : Bytes := [tag, if b then 1 else 0]

/-- Eight bytes, least significant first. -/
def fixedField (tag : UInt8) (n : Nat) : Bytes := tag :: (List.range 8).map fun k => UInt8.ofNat (n / 256 ^ k)

def storedChainKey (c : ChainKeyS) : Bytes := opt (numField 0x08) c.index ++ opt (bytesField 0x12) c.key

def storedMessageKey (k : MessageKeyS) : Bytes :=
  opt (numField 0x08) k.index ++ opt (bytesField 0x12) k.cipherKey ++ opt (bytesField 0x1A) k.macKey ++
    opt (bytesField 0x22) k.iv

def storedChain (c : ChainS) : Bytes :=
  opt (bytesField 0x0A) c.senderRatchetKey ++ opt (bytesField 0x12) c.senderRatchetKeyPrivate ++
    opt (fun k => bytesField 0x1A (storedChainKey k)) c.chainKey ++
    each (fun k => bytesField 0x22 (storedMessageKey k)) c.messageKeys

def storedPendingExchange (p : PendingKeyExchangeS) : Bytes :=
  opt (numField 0x08) p.sequence ++ opt (bytesField 0x12) p.localBaseKey ++ opt (bytesField 0x1A) p.localBaseKeyPrivate ++
    opt (bytesField 0x22) p.localRatchetKey ++ opt (bytesField 0x2A) p.localRatchetKeyPrivate ++
    opt (bytesField 0x3A) p.localIdentityKey ++ opt (bytesField 0x42) p.localIdentityKeyPrivate

def storedPendingPreKey (p : PendingPreKeyS) : Bytes :=
  opt (numField 0x08) p.preKeyId ++ opt (bytesField 0x12) p.baseKey ++ opt (signedField 0x18) p.signedPreKeyId

def storedState (s : SessionS) : Bytes :=
  opt (numField 0x08) s.sessionVersion ++ opt (bytesField 0x12) s.localIdentityPublic ++
    opt (bytesField 0x1A) s.remoteIdentityPublic ++ opt (bytesField 0x22) s.rootKey ++
    opt (numField 0x28) s.previousCounter ++ opt (fun c => bytesField 0x32 (storedChain c)) s.senderChain ++
    each (fun c => bytesField 0x3A (storedChain c)) s.receiverChains ++
    opt (fun p => bytesField 0x42 (storedPendingExchange p)) s.pendingKeyExchange ++
    opt (fun p => bytesField 0x4A (storedPendingPreKey p)) s.pendingPreKey ++
    opt (numField 0x50) s.remoteRegistrationId ++ opt (numField 0x58) s.localRegistrationId ++
    opt (boolField 0x60) s.needsRefresh ++ opt (bytesField 0x6A) s.aliceBaseKey

/-- A session record: the current state, then the archived ones. -/
def storedRecord (r : SessionRecord) : Bytes :=
  bytesField 0x0A (storedState r.sessionState) ++ each (fun s => bytesField 0x12 (storedState s)) r.previousStates

/-- A one-time prekey. -/
def storedPreKey (r : PreKeyRecord) : Bytes :=
  opt (numField 0x08) r.id ++ opt (bytesField 0x12) r.publicKey ++ opt (bytesField 0x1A) r.privateKey

/-- A signed prekey. -/
def storedSignedPreKey (r : SignedPreKeyRecord) : Bytes :=
  opt (numField 0x08) r.id ++ opt (bytesField 0x12) r.publicKey ++ opt (bytesField 0x1A) r.privateKey ++
    opt (bytesField 0x22) r.signature ++ opt (fixedField 0x29) r.timestamp

/-- An identity key pair. -/
def storedIdentity (k : KeyPair) : Bytes := bytesField 0x0A (5 :: k.pub) ++ bytesField 0x12 k.priv

def storedSeed (k : SenderSeedS) : Bytes := opt (numField 0x08) k.iteration ++ opt (bytesField 0x12) k.seed

def storedSigningKey (k : SenderSigningKeyS) : Bytes := opt (bytesField 0x0A) k.pub ++ opt (bytesField 0x12) k.priv

def storedSenderState (s : SenderKeyStateS) : Bytes :=
  opt (numField 0x08) s.senderKeyId ++ opt (fun k => bytesField 0x12 (storedSeed k)) s.senderChainKey ++
    opt (fun k => bytesField 0x1A (storedSigningKey k)) s.senderSigningKey ++
    each (fun k => bytesField 0x22 (storedSeed k)) s.senderMessageKeys

/-- A sender key record. -/
def storedSenderKeys (r : SenderKeyRecord) : Bytes := each (fun s => bytesField 0x0A (storedSenderState s)) r.senderKeyStates

/-! ## Bytes read -/

/-- The value of an `optional bool` field: the last one counts, everything but 0 is true. -/
def LastBool (num : Nat) (fs : List Field) : Option Bool → Prop
  | none => ∀ n, ⟨num, .varint n⟩ ∉ fs
  | some b => ∃ k x y, fs = x ++ ⟨num, .varint k⟩ :: y ∧ (∀ j, ⟨num, .varint j⟩ ∉ y) ∧ (b = true ↔ k ≠ 0)

/-- The value of an `optional int32` field: the last one counts, its low 32 bits in two's complement. -/
def LastSigned (num : Nat) (fs : List Field) : Option Int → Prop
  | none => ∀ n, ⟨num, .varint n⟩ ∉ fs
  | some i => ∃ (k : Nat) (x y : List Field), fs = x ++ ⟨num, .varint k⟩ :: y ∧ (∀ j, ⟨num, .varint j⟩ ∉ y) ∧
      -(2 ^ 31) ≤ i ∧ i < 2 ^ 31 ∧ ∃ m : Int, (k : Int) = i + m * 2 ^ 32

/-- Least significant byte first. -/
def littleEndian : Bytes → Nat
  | [] => 0
  | b :: bs => b.toNat + 256 * littleEndian bs

/-- The value of an `optional fixed64` field: the last one counts. -/
def LastFixed (num : Nat) (fs : List Field) : Option Nat → Prop
  | none => ∀ b, ⟨num, .i64 b⟩ ∉ fs
  | some n => ∃ b x y, fs = x ++ ⟨num, .i64 b⟩ :: y ∧ (∀ c, ⟨num, .i64 c⟩ ∉ y) ∧ n = littleEndian b

/-- The contents of all length-delimited fields of one number, in order. -/
inductive Occurs (num : Nat) : List Field → List Bytes → Prop
  | nil : Occurs num [] []
  | here {b : Bytes} {fs : List Field} {l : List Bytes} : Occurs num fs l → Occurs num (⟨num, .len b⟩ :: fs) (b :: l)
  | other {f : Field} {fs : List Field} {l : List Bytes} : (∀ b, f ≠ ⟨num, .len b⟩) → Occurs num fs l →
      Occurs num (f :: fs) l

/-- Element by element. -/
inductive Each {α β : Type} (R : α → β → Prop) : List α → List β → Prop
  | nil : Each R [] []
  | cons {a : α} {b : β} {l : List α} {m : List β} : R a b → Each R l m → Each R (a :: l) (b :: m)

/-- The value of an `optional` message field: the fields of all its occurrences together. -/
def Merged {α : Type} (num : Nat) (R : List Field → α → Prop) (fs : List Field) : Option α → Prop
  | none => Occurs num fs []
  | some a => ∃ l gs, l ≠ [] ∧ Occurs num fs l ∧ Each Items l gs ∧ R gs.flatten a

/-- The value of a `repeated` message field. -/
def Repeated {α : Type} (num : Nat) (R : List Field → α → Prop) (fs : List Field) (v : List α) : Prop :=
  ∃ l, Occurs num fs l ∧ Each (fun b a => ∃ gs, Items b gs ∧ R gs a) l v

structure ReadsChainKey (fs : List Field) (c : ChainKeyS) : Prop where
  index : LastNumber 1 fs c.index
  key : LastBytes 2 fs c.key

structure ReadsMessageKey (fs : List Field) (k : MessageKeyS) : Prop where
  index : LastNumber 1 fs k.index
  cipherKey : LastBytes 2 fs k.cipherKey
  macKey : LastBytes 3 fs k.macKey
  iv : LastBytes 4 fs k.iv

structure ReadsChain (fs : List Field) (c : ChainS) : Prop where
  senderRatchetKey : LastBytes 1 fs c.senderRatchetKey
  senderRatchetKeyPrivate : LastBytes 2 fs c.senderRatchetKeyPrivate
  chainKey : Merged 3 ReadsChainKey fs c.chainKey
  messageKeys : Repeated 4 ReadsMessageKey fs c.messageKeys

structure ReadsPendingExchange (fs : List Field) (p : PendingKeyExchangeS) : Prop where
  sequence : LastNumber 1 fs p.sequence
  localBaseKey : LastBytes 2 fs p.localBaseKey
  localBaseKeyPrivate : LastBytes 3 fs p.localBaseKeyPrivate
  localRatchetKey : LastBytes 4 fs p.localRatchetKey
  localRatchetKeyPrivate : LastBytes 5 fs p.localRatchetKeyPrivate
  localIdentityKey : LastBytes 7 fs p.localIdentityKey
  localIdentityKeyPrivate : LastBytes 8 fs p.localIdentityKeyPrivate

structure ReadsPendingPreKey (fs : List Field) (p : PendingPreKeyS) : Prop where
  preKeyId : LastNumber 1 fs p.preKeyId
  baseKey : LastBytes 2 fs p.baseKey
  signedPreKeyId : LastSigned 3 fs p.signedPreKeyId

structure ReadsState (fs : List Field) (s : SessionS) : Prop where
  sessionVersion : LastNumber 1 fs s.sessionVersion
  localIdentityPublic : LastBytes 2 fs s.localIdentityPublic
  remoteIdentityPublic : LastBytes 3 fs s.remoteIdentityPublic
  rootKey : LastBytes 4 fs s.rootKey
  previousCounter : LastNumber 5 fs s.previousCounter
  senderChain : Merged 6 ReadsChain fs s.senderChain
  receiverChains : Repeated 7 ReadsChain fs s.receiverChains
  pendingKeyExchange : Merged 8 ReadsPendingExchange fs s.pendingKeyExchange
  pendingPreKey : Merged 9 ReadsPendingPreKey fs s.pendingPreKey
  remoteRegistrationId : LastNumber 10 fs s.remoteRegistrationId
  localRegistrationId : LastNumber 11 fs s.localRegistrationId
  needsRefresh : LastBool 12 fs s.needsRefresh
  aliceBaseKey : LastBytes 13 fs s.aliceBaseKey

/-- A session record: the current state may be missing. -/
structure ReadsRecordFields (fs : List Field) (r : Option SessionS × List SessionS) : Prop where
  currentSession : Merged 1 ReadsState fs r.1
  previousSessions : Repeated 2 ReadsState fs r.2

structure ReadsSeed (fs : List Field) (k : SenderSeedS) : Prop where
  iteration : LastNumber 1 fs k.iteration
  seed : LastBytes 2 fs k.seed

structure ReadsSigningKey (fs : List Field) (k : SenderSigningKeyS) : Prop where
  pub : LastBytes 1 fs k.pub
  priv : LastBytes 2 fs k.priv

structure ReadsSenderState (fs : List Field) (s : SenderKeyStateS) : Prop where
  senderKeyId : LastNumber 1 fs s.senderKeyId
  senderChainKey : Merged 2 ReadsSeed fs s.senderChainKey
  senderSigningKey : Merged 3 ReadsSigningKey fs s.senderSigningKey
  senderMessageKeys : Repeated 4 ReadsSeed fs s.senderMessageKeys

/-- `bs` is a message of the schema described by `R`, with this content. -/
def Holds {α : Type} (R : List Field → α → Prop) (bs : Bytes) (a : α) : Prop := ∃ fs, Items bs fs ∧ R fs a

/-- `SessionRecord(serialized=bs)`: the empty string gives a fresh record, bytes that are no such message are refused, and a
record without current state gets an empty one. -/
inductive ReadsSessionRecord : Bytes → Except Err SessionRecord → Prop
  | empty : ReadsSessionRecord [] (.ok { fresh := true, sessionState := {}, previousStates := [] })
  | record {bs : Bytes} {cur : SessionS} {prev : List SessionS} : Holds ReadsRecordFields bs (some cur, prev) → bs ≠ [] →
      ReadsSessionRecord bs (.ok { fresh := false, sessionState := cur, previousStates := prev })
  | noCurrent {bs : Bytes} {prev : List SessionS} : Holds ReadsRecordFields bs (none, prev) → bs ≠ [] →
      ReadsSessionRecord bs (.ok { fresh := false, sessionState := {}, previousStates := prev })
  | bad {bs : Bytes} : (∀ r, ¬ Holds ReadsRecordFields bs r) → ReadsSessionRecord bs (.error .decodeError)

/-- `SenderKeyRecord(serialized=bs)` -/
inductive ReadsSenderKeyRecord : Bytes → Except Err SenderKeyRecord → Prop
  | record {bs : Bytes} {l : List SenderKeyStateS} : Holds (Repeated 1 ReadsSenderState) bs l →
      ReadsSenderKeyRecord bs (.ok { senderKeyStates := l })
  | bad {bs : Bytes} : (∀ l, ¬ Holds (Repeated 1 ReadsSenderState) bs l) →
      ReadsSenderKeyRecord bs (.error .decodeError)

structure ReadsPreKeyFields (fs : List Field) (r : PreKeyRecordS) : Prop where
  id : LastNumber 1 fs r.id
  publicKey : LastBytes 2 fs r.publicKey
  privateKey : LastBytes 3 fs r.privateKey

structure ReadsSignedPreKeyFields (fs : List Field) (r : SignedPreKeyRecordS) : Prop where
  id : LastNumber 1 fs r.id
  publicKey : LastBytes 2 fs r.publicKey
  privateKey : LastBytes 3 fs r.privateKey
  signature : LastBytes 4 fs r.signature
  timestamp : LastFixed 5 fs r.timestamp

/-- `PreKeyRecord(serialized=bs)` -/
inductive ReadsPreKeyRecord : Bytes → Except Err PreKeyRecord → Prop
  | empty : ReadsPreKeyRecord [] (.error .typeError)
  | record {bs : Bytes} {r : PreKeyRecordS} : bs ≠ [] → Holds ReadsPreKeyFields bs r → ReadsPreKeyRecord bs (.ok r)
  | bad {bs : Bytes} : (∀ fs, ¬ Items bs fs) → ReadsPreKeyRecord bs (.error .decodeError)

/-- `SignedPreKeyRecord(serialized=bs)` -/
inductive ReadsSignedPreKeyRecord : Bytes → Except Err SignedPreKeyRecord → Prop
  | empty : ReadsSignedPreKeyRecord [] (.error .typeError)
  | record {bs : Bytes} {r : SignedPreKeyRecordS} : bs ≠ [] → Holds ReadsSignedPreKeyFields bs r →
      ReadsSignedPreKeyRecord bs (.ok r)
  | bad {bs : Bytes} : (∀ fs, ¬ Items bs fs) → ReadsSignedPreKeyRecord bs (.error .decodeError)

/-- `IdentityKeyPair(serialized=bs)` -/
inductive ReadsIdentity : Bytes → Except Err KeyPair → Prop
  | empty : ReadsIdentity [] (.error .typeError)
  | bad {bs : Bytes} : (∀ fs, ¬ Items bs fs) → ReadsIdentity bs (.error .decodeError)
  | noKey {bs : Bytes} {fs : List Field} {pub : Option Bytes} : bs ≠ [] → Items bs fs → LastBytes 1 fs pub → Blank pub →
      ReadsIdentity bs (.error .indexError)
  | badKey {bs : Bytes} {fs : List Field} {pub : Option Bytes} : bs ≠ [] → Items bs fs → LastBytes 1 fs pub → NotKey pub →
      ReadsIdentity bs (.error .invalidKey)
  | pair {bs : Bytes} {fs : List Field} {pub priv : Option Bytes} {k : ECPub} : Items bs fs → LastBytes 1 fs pub →
      LastBytes 2 fs priv → KeyOf pub k → ReadsIdentity bs (.ok { pub := k, priv := priv.getD [] })

end Axolotl.Spec
