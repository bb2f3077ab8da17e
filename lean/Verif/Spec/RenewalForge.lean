import Verif.Spec.Renewal
import Verif.Spec.GroupForge

/-!
# What an attacker can forge in a group whose sender keys are renewed

As in `Verif/Spec/GroupForge.lean`, for each key of a name: messages under a safe key come from an attacker who computes, from anything
but the private signing key of this key; messages under other keys may be any bytes at all.
-/

namespace Axolotl.Spec
variable {M : Type}

/-- What two leaks give together. -/
def GLeak.both (l l' : GLeak) : GLeak where
  chains k := l.chains k ∨ l'.chains k
  seeds k := l.seeds k ∨ l'.seeds k
  signing := l.signing ∨ l'.signing
  texts i := l.texts i ∨ l'.texts i

variable [C : Crypto]

/-- What may happen, as in `RenewAllowed`, but the messages under a safe key come from an attacker who computes, without its private
signing key. -/
def RenewCraftAllowed (owner : SenderKeyName → M) (safe : SenderKeyName → Nat → Prop) (log : RoomLog M) (m : M) : GroupCall → Prop
  | .encrypt _ pt rand => pt.length < 2 ^ 62 ∧ rand.length = 64
  | .create n rnd => m = owner n ∧ rnd.senderKey.length = 32 ∧ rnd.signSeed.length = 32
  | .process n d => m ≠ owner n ∧ Announced n log d
  | .decrypt n b => ∀ id, messageKeyId b = some id → safe n id → ∀ d, AnnouncedAt n (ofKey n id log) 0 d → ∃ p rand headers l,
      GroupWritten d.chainKey d.signatureKey p rand headers n (ofKey n id log) ∧ ¬ l.signing ∧
      GroupCrafted d.chainKey d.signatureKey p rand headers l n (ofKey n id log) b

/-- The stores and the log that can come about with such an attacker, from empty stores. -/
inductive RenewCraftReach [DecidableEq M] (owner : SenderKeyName → M) (safe : SenderKeyName → Nat → Prop) :
    (M → GroupStore) → RoomLog M → Prop
  | start : RenewCraftReach owner safe (fun _ => GroupStore.empty) []
  | call {S : M → GroupStore} {log : RoomLog M} (m : M) (c : GroupCall) :
      RenewCraftReach owner safe S log → RenewCraftAllowed owner safe log m c →
      RenewCraftReach owner safe (fun x => if x = m then c.next (S m) else S x) (log ++ [⟨m, c, (c.run (S m)).result⟩])
  | renew {S : M → GroupStore} {log : RoomLog M} (n : SenderKeyName) (rnd : GroupSessionBuilder.CreateRand) :
      RenewCraftReach owner safe S log → rnd.senderKey.length = 32 → rnd.signSeed.length = 32 → rnd.keyId < 2 ^ 32 →
      (∀ d, Announced n log d → d.id ≠ rnd.keyId) →
      RenewCraftReach owner safe
        (fun x => if x = owner n then (GroupCall.create n rnd).next (emptied (S (owner n)) n) else S x)
        (log ++ [⟨owner n, .create n rnd, ((GroupCall.create n rnd).run (emptied (S (owner n)) n)).result⟩])

/-- The keys of the names that have not been announced so far. -/
def Unannounced (log : RoomLog M) (n : SenderKeyName) (id : Nat) : Prop := ∀ d, Announced n log d → d.id ≠ id

end Axolotl.Spec
