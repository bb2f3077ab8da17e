import Verif.Spec.Conversation
import Verif.Spec.Ratchet
import Verif.Props.PreKeys

/-!
# Conversations with an attacker on the network

In the conversations of `Verif.Spec.Conversation` the network only delivers what was sent.  Here it also delivers any other bytes,
as a message of either type.  What the attacker cannot do is said for each of their messages: they cannot make a MAC that verifies
on a session (`Unforged`), and our application does not trust a key that they made up (`UnforgedSetup.pinned`).
-/

namespace Axolotl.Spec
variable [C : Crypto]

/-- The MAC at the end of the message is right under a key that the session state offers for it. -/
def Verifies (s : SessionS) (m : WhisperMessage) : Prop :=
  ∃ macKey them me body, MacKey s m.senderRatchetKey m.counter macKey ∧ KeyOf s.remoteIdentityPublic them ∧
    KeyOf s.localIdentityPublic me ∧
    m.serialized = body ++ (C.hmac macKey ((5 :: them) ++ (5 :: me) ++ body)).take 8

/-- The session state that a prekey message sets up: the answering side's state of the key material of our identity and the
stored prekeys it names against its keys. -/
def SetUp (w : World) (m : PreKeyWhisperMessage) (s : SessionS) : Prop :=
  ∃ (signed : SignedPreKeyRecord) (spk : KeyPair) (otk : Option KeyPair) (okm : Bytes) (localReg : Nat),
    w.signedPreKeys m.signedPreKeyId = some signed ∧ PairOf signed.publicKey signed.privateKey spk ∧
    (m.preKeyId = none → otk = none) ∧
    (∀ i, m.preKeyId = some i → ∃ p k, w.preKeys i = some p ∧ PairOf p.publicKey p.privateKey k ∧ otk = some k) ∧
    AnswerMaterial w.identityKeyPair.priv spk.priv (otk.map KeyPair.priv) m.identityKey m.baseKey okm ∧
    w.registrationId = (localReg : Int) ∧
    s = { answererState w.identityKeyPair.pub m.identityKey okm spk with
      localRegistrationId := some localReg
      remoteRegistrationId := some m.registrationId
      aliceBaseKey := some (5 :: m.baseKey) }

/-- Side `b` has its session. -/
def Net.joined (cv : Conv) (n : Net) (b : Bool) : Prop := cv.waits = true → b = false → n.accepted false ≠ []

/-- A state that does not accept the message: its MAC does not verify there. -/
def Rejects (m : WhisperMessage) (s : SessionS) : Prop :=
  (s.senderChain.isSome → s.sessionVersion = some 3) ∧ ¬ Verifies s m

/-- Nobody but the two sides can make a MAC that verifies: if it verifies on our session, then the peer sent these bytes (and the
limits of delivery are kept).  On the other states in our record it does not verify. -/
structure Unforged (cv : Conv) (n : Net) (b : Bool) (m : WhisperMessage) : Prop where
  current : ∀ r, n.joined cv b → (n.world b).sessions (cv.addr b) = some r → Verifies r.sessionState m →
    ∃ (i : Nat) (c : Ciphertext) (pt : Bytes), (n.sent (!b))[i]? = some (c, pt) ∧ c.inner.serialized = m.serialized ∧
      (i ∉ n.accepted b → n.inLimits cv b (header c)) ∧ (i ∈ n.accepted b → n.remembered cv b (header c))
  before : ∀ r, ¬ n.joined cv b → (n.world b).sessions (cv.addr b) = some r → Rejects m r.sessionState
  previous : ∀ r, (n.world b).sessions (cv.addr b) = some r → ∀ s ∈ r.previousStates, Rejects m s

/-- For a message that sets up a session: the application trusts no identity key but the peer's, and if the inner message verifies
on the new session, then it is a setup message of the peer with the same base key and prekeys. -/
structure UnforgedSetup (cv : Conv) (n : Net) (b : Bool) (m : PreKeyWhisperMessage) : Prop where
  inner : Unforged cv n b m.message
  pinned : (n.world b).isTrusted (cv.addr b).1 m.identityKey = true → m.identityKey = (n.world (!b)).identityKeyPair.pub
  setup : (n.world b).isTrusted (cv.addr b).1 m.identityKey = true → ¬ alreadyKnown (n.world b) (cv.addr b) m →
    ∀ s, SetUp (n.world b) m s → Verifies s m.message →
    ∃ (i : Nat) (p : PreKeyWhisperMessage) (pt : Bytes), (n.sent (!b))[i]? = some (.preKey p, pt) ∧ p.baseKey = m.baseKey ∧
      p.preKeyId = m.preKeyId ∧ p.signedPreKeyId = m.signedPreKeyId ∧ p.message.serialized = m.message.serialized ∧
      n.inLimits cv b (header (.preKey p))

/-- What the attacker may deliver to side `b`. -/
def Attack (cv : Conv) (n : Net) (b : Bool) (type : Nat) (bytes : Bytes) : Prop :=
  if type = 3 then ∀ m, PreKeyWhisperMessage.parse bytes = .ok m → UnforgedSetup cv n b m
  else ∀ m, WhisperMessage.parse bytes = .ok m → Unforged cv n b m

/-- The session message in a ciphertext of this type. -/
def InnerBytes (type : Nat) (bytes inner : Bytes) : Prop :=
  if type = 3 then ∃ m, PreKeyWhisperMessage.parse bytes = .ok m ∧ m.message.serialized = inner else bytes = inner

/-- How the result of a delivery is put down: `acc` are the messages accepted by side `b` from then on. -/
inductive Recorded (n : Net) (b : Bool) (type : Nat) (bytes : Bytes) : Res Bytes → List Nat → Prop
  | refused {e : Err} : Recorded n b type bytes (.error e) (n.accepted b)
  | taken {i : Nat} {c : Ciphertext} {pt pt' : Bytes} : (n.sent (!b))[i]? = some (c, pt) → InnerBytes type bytes c.inner.serialized →
      Recorded n b type bytes (.ok pt') (n.accepted b ++ [i])

/-- One event: one of those without an attacker, or the attacker delivers something. -/
inductive AStep (cv : Conv) : Net → Net → Prop
  | honest {n n' : Net} : Step cv n n' → AStep cv n n'
  | attack {n : Net} {b : Bool} {type : Nat} {bytes seed : Bytes} {seeds : Nat → Bytes} {acc : List Nat} :
      Attack cv n b type bytes → seed.length = 32 → (seeds 0).length = 32 →
      C.genPub (C.genPriv seed) ∉ n.keys → C.genPub (C.genPriv (seeds 0)) ∉ n.keys →
      Recorded n b type bytes (receive (n.world b) (cv.addr b) type bytes seed seeds).result acc →
      AStep cv n { n with
        world := upd n.world b ((receive (n.world b) (cv.addr b) type bytes seed seeds).final (n.world b)),
        accepted := upd n.accepted b acc,
        keys := C.genPub (C.genPriv seed) :: C.genPub (C.genPriv (seeds 0)) :: n.keys }

inductive ASteps (cv : Conv) (n : Net) : Net → Prop
  | refl : ASteps cv n n
  | step {m m' : Net} : ASteps cv n m → AStep cv m m' → ASteps cv n m'

end Axolotl.Spec
