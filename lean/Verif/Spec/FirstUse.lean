import Verif.Spec.Forge

/-!
# First conversations

C86 and C95 assume of the attacker's messages that older sessions in the record reject them, and that our application trusts no
identity key but the peer's.  If the two sides had no session before, and their applications trust a name's first identity key and
no other after it, then both can be said of less: of the moment before the waiting side has its session, and of states that are left
behind by messages which the attacker has wrapped into setup messages of their own (C84).
-/

namespace Axolotl.Spec
variable [C : Crypto]

/-- Trust on first use: a key is trusted only if no other key is saved for the name. -/
def FirstUse (w : World) : Prop := ∀ saved name key, w.policy saved name key = true → saved name = none ∨ saved name = some key

/-- A state without any chain: what a record begins with, or what a key exchange that we have started leaves behind. -/
def Chainless (s : SessionS) : Prop := s.senderChain = none ∧ s.receiverChains = []

/-- The conversation is the first between the two sides: no other state in their records has a chain.  Whoever has the session has
saved the identity key of the peer. -/
structure First (cv : Conv) (n : Net) : Prop where
  policy : ∀ b, FirstUse (n.world b)
  saved : ∀ b, n.joined cv b → (n.world b).identities (cv.addr b).1 = some (n.world (!b)).identityKeyPair.pub
  before : ∀ b r, ¬ n.joined cv b → (n.world b).sessions (cv.addr b) = some r → Chainless r.sessionState
  previous : ∀ b r, (n.world b).sessions (cv.addr b) = some r → ∀ s ∈ r.previousStates, Chainless s

/-- A state that a message has left behind which was wrapped into another setup message: it was set up under the identity key of the
peer, with prekeys of ours (the one-time prekeys `preKeys` that we had at the time), and with another base key than our session. -/
def Leftover (cv : Conv) (n : Net) (b : Bool) (s : SessionS) : Prop :=
  ∃ (preKeys : Nat → Option PreKeyRecord) (m : PreKeyWhisperMessage), m.identityKey = (n.world (!b)).identityKeyPair.pub ∧
    SetUp { n.world b with preKeys := preKeys } m s ∧
    ∀ r, (n.world b).sessions (cv.addr b) = some r → r.sessionState.aliceBaseKey ≠ some (5 :: m.baseKey)

/-- The terms of the MAC keys that such a state offers for message number `k`. -/
inductive OfferedLeft (spkId : Nat) (cv : Conv) (b : Bool) (k : Nat) : Term → Prop
  | stray {i : Nat} {rest d : Bytes} :
      OfferedLeft spkId cv b k (.strayMac (.otherRoot (.agree (.identity !b) (spkName cv spkId b i)) rest) d k)

/-- A session message to side `b` from an attacker who computes; nothing is assumed about older sessions. -/
structure Composed (key : KeyName → Bytes) (top spkId : Nat) (cv : Conv) (n : Net) (l : Leak) (b : Bool) (m : WhisperMessage) : Prop where
  computed : ∀ r, n.joined cv b → (n.world b).sessions (cv.addr b) = some r →
    Computed key (l.Sees cv.setup (Tagged key top n)) (Offered key cv.setup top r.sessionState m.senderRatchetKey m.counter)
      r.sessionState m
  limits : ∀ r, n.joined cv b → (n.world b).sessions (cv.addr b) = some r → Verifies r.sessionState m →
    ∀ i c pt, (n.sent (!b))[i]? = some (c, pt) → c.inner.serialized = m.serialized →
      (i ∉ n.accepted b → n.inLimits cv b (header c)) ∧ (i ∈ n.accepted b → n.remembered cv b (header c))
  leftover : ∀ r s, (n.world b).sessions (cv.addr b) = some r → s ∈ r.previousStates → Leftover cv n b s →
    Computed key (l.Sees cv.setup (Tagged key top n)) (OfferedLeft spkId cv b m.counter) s m

/-- A prekey message to side `b` from an attacker who computes.  That our application trusts no other key is assumed as long as side
`b` waits for the setup message. -/
structure ComposedSetup (key : KeyName → Bytes) (top spkId : Nat) (cv : Conv) (n : Net) (l : Leak) (b : Bool)
    (m : PreKeyWhisperMessage) : Prop where
  inner : Composed key top spkId cv n l b m.message
  contact : ¬ n.joined cv b → (n.world b).isTrusted (cv.addr b).1 m.identityKey = true →
    m.identityKey = (n.world (!b)).identityKeyPair.pub
  setup : (n.world b).isTrusted (cv.addr b).1 m.identityKey = true → ¬ alreadyKnown (n.world b) (cv.addr b) m →
    ∀ s, SetUp (n.world b) m s →
      Computed key (l.Sees cv.setup (Tagged key top n)) (OfferedFirst key top spkId cv b m) s m.message ∧
      (Verifies s m.message → ∀ (i : Nat) (c : Ciphertext) (pt : Bytes), (n.sent (!b))[i]? = some (c, pt) → c.inner.serialized = m.message.serialized →
        n.inLimits cv b (header c))

/-- What such an attacker may deliver to side `b`. -/
def Compose (key : KeyName → Bytes) (top spkId : Nat) (cv : Conv) (n : Net) (l : Leak) (b : Bool) (type : Nat) (bytes : Bytes) : Prop :=
  if type = 3 then ∀ m, PreKeyWhisperMessage.parse bytes = .ok m → ComposedSetup key top spkId cv n l b m
  else ∀ m, WhisperMessage.parse bytes = .ok m → Composed key top spkId cv n l b m

/-- One event of a first conversation. -/
inductive FStep (cv : Conv) : Net → Net → Prop
  | honest {n n' : Net} : Step cv n n' → FStep cv n n'
  | compose {n : Net} {key : KeyName → Bytes} {top spkId : Nat} {l : Leak} {b : Bool} {type : Nat} {bytes seed : Bytes}
      {seeds : Nat → Bytes} {acc : List Nat} :
      Named key top spkId cv n → Outside l cv spkId b → Compose key top spkId cv n l b type bytes →
      seed.length = 32 → (seeds 0).length = 32 →
      C.genPub (C.genPriv seed) ∉ n.keys → C.genPub (C.genPriv (seeds 0)) ∉ n.keys →
      Recorded n b type bytes (receive (n.world b) (cv.addr b) type bytes seed seeds).result acc →
      FStep cv n { n with
        world := upd n.world b ((receive (n.world b) (cv.addr b) type bytes seed seeds).final (n.world b)),
        accepted := upd n.accepted b acc,
        keys := C.genPub (C.genPriv seed) :: C.genPub (C.genPriv (seeds 0)) :: n.keys }

inductive FSteps (cv : Conv) (n : Net) : Net → Prop
  | refl : FSteps cv n n
  | step {m m' : Net} : FSteps cv n m → FStep cv m m' → FSteps cv n m'

end Axolotl.Spec
