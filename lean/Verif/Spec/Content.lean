import Verif.Spec.Conversation

/-!
# The same conversation with other words

What two runs of a conversation have in common in which the same things happen in the same order, with the same randomness, and
only the plaintexts differ.
-/

namespace Axolotl.Spec
variable [C : Crypto]

/-- Two session messages that differ at most in the encrypted body and the MAC. -/
structure SameHeader (m m' : WhisperMessage) : Prop where
  ratchetKey : m'.senderRatchetKey = m.senderRatchetKey
  version : m'.messageVersion = m.messageVersion
  counter : m'.counter = m.counter
  previous : m'.previousCounter = m.previousCounter

/-- Two ciphertexts of the same kind that differ at most in the encrypted body and the MAC. -/
inductive SameOutside : Ciphertext → Ciphertext → Prop
  | whisper {m m' : WhisperMessage} : SameHeader m m' → SameOutside (.whisper m) (.whisper m')
  | preKey {p p' : PreKeyWhisperMessage} : p'.version = p.version → p'.registrationId = p.registrationId →
      p'.preKeyId = p.preKeyId → p'.signedPreKeyId = p.signedPreKeyId → p'.baseKey = p.baseKey →
      p'.identityKey = p.identityKey → SameHeader p.message p'.message → SameOutside (.preKey p) (.preKey p')

/-- Two moments, reached by the same events: in `m` side `b` says `say b i` as its message number `i`, in `n` anything.  All
stores, all that was accepted and all ratchet keys are the same; the ciphertexts are the same on the outside, and as long as each
other if the plaintexts take up the same number of blocks. -/
structure Retold (say : Bool → Nat → Bytes) (n m : Net) : Prop where
  world : m.world = n.world
  accepted : m.accepted = n.accepted
  keys : m.keys = n.keys
  count : ∀ b, (m.sent b).length = (n.sent b).length
  sent : ∀ (b : Bool) (i : Nat) (c c' : Ciphertext) (pt pt' : Bytes), (n.sent b)[i]? = some (c, pt) → (m.sent b)[i]? = some (c', pt') →
    pt' = say b i ∧ SameOutside c c' ∧ (pt'.length / 16 = pt.length / 16 → c'.serialize.length = c.serialize.length)

end Axolotl.Spec
