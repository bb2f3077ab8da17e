import Verif.Spec.FirstUse

/-!
# Stealing the whole record

`theft` of C89 takes the current session states.  A record holds archived states too: here they are stolen with it.
-/

namespace Axolotl.Spec
namespace Term

/-- The first chain key of a setup that is not the one of this conversation, see `otherRoot`. -/
def otherChain (x : Term) (rest : Bytes) : Term :=
  block textInfo (hmac noSalt (join (bytes (List.replicate 32 0xFF)) (join x (bytes rest)))) 1

end Term

/-- The secrets in a state that was left behind: it was set up with the signed prekey number `i` of side `b`. -/
inductive LeftHas (spkId : Nat) (cv : Conv) (b : Bool) (i : Nat) (rest : Bytes) : Term → Prop
  | ratchet : LeftHas spkId cv b i rest (.priv (spkName cv spkId b i))
  | root : LeftHas spkId cv b i rest (.otherRoot (.agree (.identity !b) (spkName cv spkId b i)) rest)
  | chain : LeftHas spkId cv b i rest (.otherChain (.agree (.identity !b) (spkName cv spkId b i)) rest)

section
variable [C : Crypto]

/-- These are all the secrets in it. -/
structure LeftSpells (key : KeyName → Bytes) (spkId : Nat) (cv : Conv) (b : Bool) (i : Nat) (rest : Bytes) (st : SessionS) : Prop where
  root : st.rootKey = some ((Term.otherRoot (.agree (.identity !b) (spkName cv spkId b i)) rest).value key fun _ _ => [])
  send : ∃ pub, st.senderChain = some
    { senderRatchetKey := some pub
      senderRatchetKeyPrivate := some (key (spkName cv spkId b i))
      chainKey := some
        { key := some ((Term.otherChain (.agree (.identity !b) (spkName cv spkId b i)) rest).value key fun _ _ => []), index := some 0 } }
  recv : st.receiverChains = []
  exchange : st.pendingKeyExchange = none

/-- What an attacker has who has seen all messages, and steals the records of the sides in `S`: the current states, as `theft` says,
and the archived states that were left behind. -/
def recordTheft (key : KeyName → Bytes) (top spkId : Nat) (cv : Conv) (n : Net) (S : Bool → Prop) (extra : KeyName → Prop)
    (texts : Bool → Nat → Prop) (t : Term) : Prop :=
  (theft key top cv n S extra texts).Has cv.setup (Placed key top n) t ∨
  ∃ b r s i rest, S b ∧ (n.world b).sessions (cv.addr b) = some r ∧ s ∈ r.previousStates ∧ LeftSpells key spkId cv b i rest s ∧
    LeftHas spkId cv b i rest t

end
end Axolotl.Spec
