import Verif.Spec.Room

/-!
# Groups whose members restore backups

As in `Verif/Spec/Room.lean`, but now and then a member puts back the sender-key store it had at an earlier moment, while the others
have moved on.  A room records everything that has happened and, for each member, what has happened to its present store: a restored
store does not remember the calls made since the backup was taken.
-/

namespace Axolotl.Spec
variable [C : Crypto]
variable {M : Type} [DecidableEq M]

/-- The members' stores, everything that has happened, and what the stores have been through. -/
structure Room (M : Type) where
  store : M → GroupStore
  log : RoomLog M
  own : M → RoomLog M

def Room.start : Room M := ⟨fun _ => GroupStore.empty, [], fun _ => []⟩

/-- A member makes a call. -/
def Room.call (r : Room M) (m : M) (c : GroupCall) : Room M :=
  let e : RoomEntry M := ⟨m, c, (c.run (r.store m)).result⟩
  { store := fun x => if x = m then c.next (r.store m) else r.store x
    log := r.log ++ [e]
    own := fun x => if x = m then r.own m ++ [e] else r.own x }

/-- A member puts back the store it had in `old`. -/
def Room.restore (r : Room M) (m : M) (old : Room M) : Room M :=
  { store := fun x => if x = m then old.store m else r.store x
    log := r.log
    own := fun x => if x = m then old.own m else r.own x }

/-- The bytes of `d` were returned by `create` for this name. -/
def Announced (n : SenderKeyName) (log : RoomLog M) (d : SenderKeyDistributionMessage) : Prop :=
  ∃ e ∈ log, ∃ rnd d0, e.call = .create n rnd ∧ e.reply = .ok (.distribution d0) ∧
    SenderKeyDistributionMessage.parse d0.serialized = .ok d

/-- The iteration a group message carries. -/
def HasNumber (b : Bytes) (i : Nat) : Prop := ∃ m, SenderKeyMessage.parse b = .ok m ∧ m.iteration = i

/-- The calls that are considered: as in `RoomAllowed`. -/
def BackupAllowed (owner : SenderKeyName → M) (log : RoomLog M) (m : M) : GroupCall → Res GroupReply → Prop
  | .encrypt _ pt rand, _ => pt.length < 2 ^ 62 ∧ rand.length = 64
  | .create n rnd, _ => m = owner n ∧ rnd.senderKey.length = 32 ∧ rnd.signSeed.length = 32
  | .process n d, _ => Announced n log d
  | .decrypt n b, r => ∀ x, r = .ok x → ∃ y ∈ sentUnder n log, SameBody b y.bytes

/-- The rooms that can come about, with the earlier moments.  Any member may go back to any earlier moment, as often as it likes; but
the backup of a member contains the sender keys which that member has created. -/
inductive BackupReach (owner : SenderKeyName → M) : List (Room M) → Room M → Prop
  | start : BackupReach owner [] Room.start
  | call {past : List (Room M)} {r : Room M} (m : M) (c : GroupCall) : BackupReach owner past r →
      BackupAllowed owner r.log m c (c.run (r.store m)).result → BackupReach owner (r :: past) (r.call m c)
  | restore {past : List (Room M)} {r : Room M} (m : M) (old : Room M) : BackupReach owner past r → old ∈ past →
      (∀ n d, owner n = m → Announced n r.log d → ∃ d', Announced n old.log d') →
      BackupReach owner (r :: past) (r.restore m old)

/-- The numbers of the messages a member has read and sent, according to a log. -/
def ReadNumber (m : M) (n : SenderKeyName) (log : RoomLog M) (i : Nat) : Prop := ∃ p ∈ readBy m n log, HasNumber p.1 i
def SentNumber (n : SenderKeyName) (log : RoomLog M) (i : Nat) : Prop := ∃ x ∈ sentUnder n log, HasNumber x.bytes i

end Axolotl.Spec
