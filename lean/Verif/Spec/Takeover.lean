import Verif.Spec.Active
import Verif.Spec.Restore

/-!
# A session record in other hands

Somebody else has the session record of one side: the same person on another device, or a thief.
-/

namespace Axolotl.Spec
variable [C : Crypto]

/-- The store `w` holds, under address `a`, the session record of side `b`, and claims its identity: the public key is that of side
`b`.  The private key, the prekeys, the registration id and all other sessions may be anything.  Who carries on for the answering
side has to trust the initiator's identity key, as that side did. -/
structure Carries (cv : Conv) (n : Net) (b : Bool) (a : Address) (w : World) : Prop where
  record : w.sessions a = (n.world b).sessions (cv.addr b)
  identity : w.identityKeyPair.pub = (n.world b).identityKeyPair.pub
  trust : b = false → cv.waits = true → Trusting w.policy a.1 (n.world true).identityKeyPair.pub ∧
    (w.identities a.1 = none ∨ w.identities a.1 = some (n.world true).identityKeyPair.pub)

/-- The conversation in which the owner of that store has taken the place of side `b`. -/
def Conv.moved (cv : Conv) (b : Bool) (a : Address) : Conv := { cv with addr := upd cv.addr b a }
def Net.moved (n : Net) (b : Bool) (w : World) : Net := { n with world := upd n.world b w }

end Axolotl.Spec
