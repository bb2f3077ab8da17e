import Verif.Spec.GroupSecrecy

/-!
# What an attacker can forge in a group

C72 assumes of each group message that it is accepted only if the owner of the name sent it, up to the signature.  Here this is
derived from what the attacker can compute (`GDerives`): if the signature of a message verifies, then the attacker can compute a
signature of what is in front of it.
-/

namespace Axolotl.Spec
variable {M : Type}

/-- What message number `i` says. -/
def saidUnder (n : SenderKeyName) (log : RoomLog M) (i : Nat) : Bytes := (((sentUnder n log)[i]?).map GroupSent.plaintext).getD []

variable [C : Crypto]

/-- The messages sent under a name are, byte for byte, the terms `wire`, if the first chain key is `K`, the private signing key
`p`, the randomness of the signatures `rand`, and these the headers. -/
structure GroupWritten (K : Bytes) (pub : ECPub) (p : ECPriv) (rand : Bytes → Bytes) (headers : Nat → Bytes) (n : SenderKeyName)
    (log : RoomLog M) : Prop where
  pair : C.Generated p ∧ C.genPub p = pub
  random : ∀ x, (rand x).length = 64
  sent : ∀ (i : Nat) x, (sentUnder n log)[i]? = some x → x.bytes = (GTerm.wire i (headers i)).value K p (saidUnder n log) rand

/-- The bytes come from an attacker who has what has leaked and the messages sent so far: if the signature verifies, they can compute
a signature of what it has to cover.  (It need not be the same one.) -/
def GroupCrafted (K : Bytes) (pub : ECPub) (p : ECPriv) (rand : Bytes → Bytes) (headers : Nat → Bytes) (l : GLeak)
    (n : SenderKeyName) (log : RoomLog M) (b : Bytes) : Prop :=
  ∀ m, SenderKeyMessage.parse b = .ok m → m.verifySignature pub = .ok () →
    ∃ t : GTerm, GDerives (l.Has headers (sentUnder n log).length) (.sig t) ∧
      t.value K p (saidUnder n log) rand = b.take (b.length - 64)

/-- What may happen, as in `RoomAllowed`, but the group messages come from an attacker who computes, from anything but the private
signing key of the name. -/
def CraftAllowed (owner : SenderKeyName → M) (log : RoomLog M) (m : M) : GroupCall → Prop
  | .encrypt _ pt rand => pt.length < 2 ^ 62 ∧ rand.length = 64
  | .create n rnd => m = owner n ∧ rnd.senderKey.length = 32 ∧ rnd.signSeed.length = 32
  | .process n d => ∃ k, AnnouncedAt n log k d
  | .decrypt n b => ∀ d, AnnouncedAt n log 0 d → ∃ p rand headers l,
      GroupWritten d.chainKey d.signatureKey p rand headers n log ∧ ¬ l.signing ∧
      GroupCrafted d.chainKey d.signatureKey p rand headers l n log b

/-- The stores and the log that can come about with such an attacker, from empty stores. -/
inductive CraftReach [DecidableEq M] (owner : SenderKeyName → M) : (M → GroupStore) → RoomLog M → Prop
  | start : CraftReach owner (fun _ => GroupStore.empty) []
  | call {S : M → GroupStore} {log : RoomLog M} (m : M) (c : GroupCall) :
      CraftReach owner S log → CraftAllowed owner log m c →
      CraftReach owner (fun x => if x = m then c.next (S m) else S x) (log ++ [⟨m, c, (c.run (S m)).result⟩])

/-- What an attacker sends as message number `i` who has the signing key and the keys of this message: a message of their own. -/
def GTerm.forged (i : Nat) (header text : Bytes) : GTerm :=
  .join (.join (.bytes header) (.enc (.keys i) (.bytes text))) (.sig (.join (.bytes header) (.enc (.keys i) (.bytes text))))

end Axolotl.Spec
