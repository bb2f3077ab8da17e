import Verif.Model.Group
import Verif.Spec.Session

/-!
# Histories of group calls

One party's group calls, with all their arguments and randomness, as data; and the parts of a sender-key
state that the group properties speak about.
-/

namespace Axolotl
variable [C : Crypto]

/-- A call of the public group API. -/
inductive GroupCall where
  /-- `GroupCipher.encrypt` -/
  | encrypt (name : SenderKeyName) (plaintext : Bytes) (rand : Bytes)
  /-- `GroupCipher.decrypt` -/
  | decrypt (name : SenderKeyName) (bytes : Bytes)
  /-- `GroupSessionBuilder.process`, on any distribution message object -/
  | process (name : SenderKeyName) (m : SenderKeyDistributionMessage)
  /-- `GroupSessionBuilder.create` -/
  | create (name : SenderKeyName) (rnd : GroupSessionBuilder.CreateRand)

/-- What a call returns. -/
inductive GroupReply where
  | bytes (b : Bytes)
  | done
  | distribution (m : SenderKeyDistributionMessage)
  deriving DecidableEq, Repr

namespace GroupCall

def name : GroupCall → SenderKeyName
  | .encrypt n .. | .decrypt n .. | .process n .. | .create n .. => n

/-- Rename the result type of an outcome. -/
def mapG {α β : Type} (f : α → β) (o : GOutcome α) : GOutcome β :=
  ⟨o.stored, match o.result with | .ok a => .ok (f a) | .error e => .error e⟩

/-- Run one call. -/
def run (g : GroupStore) : GroupCall → GOutcome GroupReply
  | .encrypt n pt rand => mapG .bytes (GroupCipher.encrypt g n pt rand)
  | .decrypt n b => mapG .bytes (GroupCipher.decrypt g n b)
  | .process n m => mapG (fun _ => .done) (GroupSessionBuilder.process g n m)
  | .create n rnd => mapG .distribution (GroupSessionBuilder.create g n rnd)

/-- The store after one call. -/
def next (g : GroupStore) (c : GroupCall) : GroupStore := (c.run g).final g c.name

/-- The store after a history. -/
def after (g : GroupStore) (cs : List GroupCall) : GroupStore := cs.foldl next g

/-- The replies of a history, in order. -/
def replies : GroupStore → List GroupCall → List (Res GroupReply)
  | _, [] => []
  | g, c :: cs => (c.run g).result :: replies (c.next g) cs

end GroupCall

/-- A store in which nothing has been set up yet. -/
def GroupStore.empty : GroupStore := fun _ => {}

namespace Spec

/-- The sender-key state used for messages with this key id: the first one in the record. -/
def stateFor (r : SenderKeyRecord) (id : Nat) : Option SenderKeyStateS :=
  r.senderKeyStates.find? fun s => s.senderKeyId.getD 0 == id

/-- The sender-key state used for sending. -/
def sendingState (r : SenderKeyRecord) : Option SenderKeyStateS := r.senderKeyStates.head?

/-- The iteration the chain of a state has reached. -/
def iterationOf (s : SenderKeyStateS) : Nat :=
  match s.senderChainKey with
  | some c => c.iteration.getD 0
  | none => 0

/-- The current chain key of a state. -/
def chainKeyOf (s : SenderKeyStateS) : Bytes :=
  match s.senderChainKey with
  | some c => c.seed.getD []
  | none => []

/-- The skipped iterations whose message keys are kept. -/
def pending (s : SenderKeyStateS) : List Nat := s.senderMessageKeys.map fun k => k.iteration.getD 0

/-- `"WhisperGroup"` -/
def groupInfo : Bytes := [87, 104, 105, 115, 112, 101, 114, 71, 114, 111, 117, 112]

/-- The 48 bytes of group message key material of a message seed. -/
def groupOkm (seed : Bytes) : Bytes := hkdf [] seed groupInfo 48

/-- IV and cipher key of a message seed. -/
def groupIv (seed : Bytes) : Bytes := (groupOkm seed).take 16
def groupCipherKey (seed : Bytes) : Bytes := (groupOkm seed).drop 16

/-- The message seed of a chain key. -/
def groupSeed (chainKey : Bytes) : Bytes := C.hmac chainKey [0x01]

/-- A message sent to a group: the name used, the plaintext and what `encrypt` returned. -/
structure GroupSent where
  name : SenderKeyName
  plaintext : Bytes
  bytes : Bytes

/-- The messages sent in a history of calls. -/
def groupSent : GroupStore → List GroupCall → List GroupSent
  | _, [] => []
  | g, c :: cs =>
    (match c with
     | .encrypt n pt rand =>
       match (GroupCipher.encrypt g n pt rand).result with
       | .ok b => [⟨n, pt, b⟩]
       | .error _ => []
     | _ => []) ++ groupSent (c.next g) cs

/-- Plaintexts are shorter than 2^62 bytes, signature randomness is 64 bytes and `create` draws 32-byte keys. -/
def GroupCallOk : GroupCall → Prop
  | .encrypt _ pt rand => pt.length < 2 ^ 62 ∧ rand.length = 64
  | .create _ rnd => rnd.senderKey.length = 32 ∧ rnd.signSeed.length = 32
  | _ => True

/-- Something that happens at a member of the group. -/
inductive GroupEvent where
  /-- one of the sender's messages arrives -/
  | deliver (index : Nat)
  /-- any other call is made -/
  | other (c : GroupCall)

/-- The call of an event, if messages are received under this name. -/
def GroupEvent.call (n : SenderKeyName) (msg : Nat → Bytes) : GroupEvent → GroupCall
  | .deliver i => .decrypt n (msg i)
  | .other c => c

/-- The messages that arrive, in order. -/
def arrivals : List GroupEvent → List Nat
  | [] => []
  | .deliver i :: es => i :: arrivals es
  | .other _ :: es => arrivals es

/-- The results of the deliveries among the events. -/
def deliverGroup (n : SenderKeyName) (msg : Nat → Bytes) : GroupStore → List GroupEvent → List (Res Bytes)
  | _, [] => []
  | g, .deliver i :: es =>
    (GroupCipher.decrypt g n (msg i)).result :: deliverGroup n msg ((GroupEvent.deliver i).call n msg |>.next g) es
  | g, .other c :: es => deliverGroup n msg (c.next g) es

/-- Among the other calls, no bytes naming this key id are accepted under this name: nobody else can sign for it. -/
def NoForgery (n : SenderKeyName) (id : Nat) (msg : Nat → Bytes) : GroupStore → List GroupEvent → Prop
  | _, [] => True
  | g, e :: es =>
    (∀ b m, e = .other (.decrypt n b) → SenderKeyMessage.parse b = .ok m → m.keyId = id →
      ∀ pt, (GroupCipher.decrypt g n b).result ≠ .ok pt) ∧
    NoForgery n id msg ((e.call n msg).next g) es

end Spec
end Axolotl
