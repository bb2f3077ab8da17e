import Verif.Spec.Conversation

/-!
# Restoring a backup

One side of a conversation puts back the stores it had at an earlier moment, while its peer has moved on.
-/

namespace Axolotl.Spec
variable [C : Crypto]

/-- What each side can expect at a moment of a conversation: a message not accepted so far, within the limits, is decrypted to
what was encrypted; one accepted before is refused as a duplicate and changes no session and no prekey. -/
def Readable (cv : Conv) (n : Net) : Prop :=
  ∀ (b : Bool) (i : Nat) (c : Ciphertext) (pt seed : Bytes) (seeds : Nat → Bytes), (n.sent (!b))[i]? = some (c, pt) →
    seed.length = 32 → C.genPub (C.genPriv seed) ∉ n.keys →
    let o := receive (n.world b) (cv.addr b) c.getType c.serialize seed seeds
    (i ∉ n.accepted b → n.inLimits cv b (header c) → o.result = .ok pt) ∧
    (i ∈ n.accepted b → n.remembered cv b (header c) →
      o.result = .error .duplicateMessage ∧ (o.final (n.world b)).sessions = (n.world b).sessions ∧
      (o.final (n.world b)).preKeys = (n.world b).preKeys)

/-- Side `b` has put back what it had at moment `n1`, and its peer is at moment `m`: the peer's stores, messages and acceptances
are those of `m`; the stores and acceptances of `b` are those of `n1`, and it has sent `sent`. -/
structure Mixed (b : Bool) (n1 m : Net) (sent : List (Ciphertext × Bytes)) (n : Net) : Prop where
  world : n.world b = n1.world b
  accepted : n.accepted b = n1.accepted b
  sent : n.sent b = sent
  peerWorld : n.world (!b) = m.world (!b)
  peerAccepted : n.accepted (!b) = m.accepted (!b)
  peerSent : n.sent (!b) = m.sent (!b)
  keys : ∀ k ∈ n.keys, k ∈ m.keys

end Axolotl.Spec
