import Verif.Spec.Forge

/-!
# After a theft, once the ratchet has moved on

A thief reads session states at the moment `n1` and keeps what they read.  The conversation goes on.  The question is when messages that
the thief computes are refused again.
-/

namespace Axolotl.Spec
variable [C : Crypto]

omit C in
/-- All that has leaked of the conversation belongs to the ratchet keys up to number `t`. -/
structure Leak.UpTo (l : Leak) (t : Nat) : Prop where
  keys : ∀ j, l.keys (.ratchet j) → j ≤ t
  roots : ∀ j, l.roots j → j ≤ t
  chains : ∀ j k, l.chains j k → j ≤ t
  messages : ∀ j k, l.messages j k → j ≤ t

omit C in
/-- The private keys with which a new session can be set up on side `b` under the peer's identity have not leaked. -/
structure Spared (l : Leak) (cv : Conv) (spkId : Nat) (b : Bool) : Prop where
  identity : ¬ l.keys (.identity !b)
  signed : ∀ i, ¬ l.keys (spkName cv spkId b i)

/-- The names fit the conversation at `n`, the ratchet keys are numbered in the order in which they came, and those up to number `top1`
are from before `n1`. -/
structure Timed (key : KeyName → Bytes) (top1 top spkId : Nat) (cv : Conv) (n1 n : Net) : Prop where
  named : Named key top spkId cv n
  before : ∀ j, j ≤ top1 → C.genPub (key (.ratchet j)) ∈ n1.keys
  /-- side `true` sees the keys 0, 2, 4, …, side `false` sees 1, 3, 5, … -/
  seen : ∀ (b : Bool) (t : Nat) (x : ECPub), (seenKeys (cv.start b) (n.log b))[t]? = some x →
    2 * t + (if b then 0 else 1) ≤ top ∧ x = C.genPub (key (.ratchet (2 * t + if b then 0 else 1)))
  /-- and each side sends with the one after the last it has seen -/
  mine : ∀ b r c j, n.joined cv b → (n.world b).sessions (cv.addr b) = some r → r.sessionState.senderChain = some c →
    Labelled key top c j → j + 1 = 2 * (seenKeys (cv.start b) (n.log b)).length + if b then 0 else 1

/-- Since `n1` side `b` has accepted messages under six new ratchet keys of the peer: one, and then five more. -/
def Recovered (cv : Conv) (n1 n : Net) (b : Bool) : Prop :=
  ∃ pre x post, seenKeys (cv.start b) (n.log b) = pre ++ x :: post ∧ x ∉ n1.keys ∧ 5 ≤ post.length

/-- One event after a theft at `n1`: one of those of C86, or someone who has what leaked then computes a message for a side that has
recovered. -/
inductive RStep (cv : Conv) (n1 : Net) : Net → Net → Prop
  | usual {n n' : Net} : AStep cv n n' → RStep cv n1 n n'
  | craft {n : Net} {key : KeyName → Bytes} {top1 top spkId : Nat} {l : Leak} {b : Bool} {type : Nat} {bytes seed : Bytes}
      {seeds : Nat → Bytes} {acc : List Nat} :
      Timed key top1 top spkId cv n1 n → l.UpTo top1 → Spared l cv spkId b → Recovered cv n1 n b →
      Craft key top spkId cv n l b type bytes →
      seed.length = 32 → (seeds 0).length = 32 →
      C.genPub (C.genPriv seed) ∉ n.keys → C.genPub (C.genPriv (seeds 0)) ∉ n.keys →
      Recorded n b type bytes (receive (n.world b) (cv.addr b) type bytes seed seeds).result acc →
      RStep cv n1 n { n with
        world := upd n.world b ((receive (n.world b) (cv.addr b) type bytes seed seeds).final (n.world b)),
        accepted := upd n.accepted b acc,
        keys := C.genPub (C.genPriv seed) :: C.genPub (C.genPriv (seeds 0)) :: n.keys }

inductive RSteps (cv : Conv) (n1 : Net) (n : Net) : Net → Prop
  | refl : RSteps cv n1 n n
  | step {m m' : Net} : RSteps cv n1 n m → RStep cv n1 m m' → RSteps cv n1 n m'

end Axolotl.Spec
