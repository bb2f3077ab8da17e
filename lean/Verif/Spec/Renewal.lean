import Verif.Spec.GroupBackup
import Verif.Spec.GroupSecrecy

/-!
# Groups whose senders renew their keys

The library has no call that gives a sender a new key: `create` returns the present one.  An application that wants a new one (because
a member has left the group, or a record may have been read) stores an empty record under the name and calls `create`.  Here this can
happen at any moment.  Everything is read off the log of calls; what concerns one of the keys of a name is picked out of it by the id
of the key, which is in every announcement and every message.
-/

namespace Axolotl.Spec
variable [C : Crypto]
variable {M : Type} [DecidableEq M]

/-- The id of the key a group message is under, and the one an announcement is about. -/
def messageKeyId (b : Bytes) : Option Nat := (SenderKeyMessage.parse b).toOption.map (·.keyId)
def announcementKeyId (b : Bytes) : Option Nat := (SenderKeyDistributionMessage.parse b).toOption.map (·.id)

/-- The call succeeded and was about this key of the name. -/
def About (n : SenderKeyName) (id : Nat) (e : RoomEntry M) : Bool :=
  match e.call, e.reply with
  | .create n' _, .ok (.distribution d) => n' = n && announcementKeyId d.serialized = some id
  | .encrypt n' _ _, .ok (.bytes b) => n' = n && messageKeyId b = some id
  | .process n' d, .ok _ => n' = n && d.id = id
  | .decrypt n' b, .ok _ => n' = n && messageKeyId b = some id
  | _, _ => false

/-- What has happened with one key of a name. -/
def ofKey (n : SenderKeyName) (id : Nat) (log : RoomLog M) : RoomLog M := log.filter (About n id)

/-- The states in a record for one key. -/
def statesOf (id : Nat) (r : SenderKeyRecord) : List SenderKeyStateS := r.senderKeyStates.filter fun s => s.senderKeyId.getD 0 == id

/-- The records as far as they are about one key of the name. -/
def onlyKey (n : SenderKeyName) (id : Nat) (S : M → GroupStore) : M → GroupStore :=
  fun m n' => if n' = n then { senderKeyStates := statesOf id (S m n) } else {}

/-- The calls that are considered: as in `RoomAllowed`, but the owner of a name does not process announcements for it, and only for the
keys in `safe` it is assumed that nobody can sign for the owner. -/
def RenewAllowed (owner : SenderKeyName → M) (safe : SenderKeyName → Nat → Prop) (log : RoomLog M) (m : M) :
    GroupCall → Res GroupReply → Prop
  | .encrypt _ pt rand, _ => pt.length < 2 ^ 62 ∧ rand.length = 64
  | .create n rnd, _ => m = owner n ∧ rnd.senderKey.length = 32 ∧ rnd.signSeed.length = 32
  | .process n d, _ => m ≠ owner n ∧ Announced n log d
  | .decrypt n b, r => ∀ x id, r = .ok x → messageKeyId b = some id → safe n id → ∃ y ∈ sentUnder n log, SameBody b y.bytes

/-- The store in which the record of a name is empty again. -/
def emptied (g : GroupStore) (n : SenderKeyName) : GroupStore := g.store n {}

/-- The stores and the log that can come about: calls, and renewals, in which the owner of a name stores an empty record and calls
`create`, which draws an id that the name has not had. -/
inductive RenewReach (owner : SenderKeyName → M) (safe : SenderKeyName → Nat → Prop) : (M → GroupStore) → RoomLog M → Prop
  | start : RenewReach owner safe (fun _ => GroupStore.empty) []
  | call {S : M → GroupStore} {log : RoomLog M} (m : M) (c : GroupCall) :
      RenewReach owner safe S log → RenewAllowed owner safe log m c (c.run (S m)).result →
      RenewReach owner safe (fun x => if x = m then c.next (S m) else S x) (log ++ [⟨m, c, (c.run (S m)).result⟩])
  | renew {S : M → GroupStore} {log : RoomLog M} (n : SenderKeyName) (rnd : GroupSessionBuilder.CreateRand) :
      RenewReach owner safe S log → rnd.senderKey.length = 32 → rnd.signSeed.length = 32 → rnd.keyId < 2 ^ 32 →
      (∀ d, Announced n log d → d.id ≠ rnd.keyId) →
      RenewReach owner safe
        (fun x => if x = owner n then (GroupCall.create n rnd).next (emptied (S (owner n)) n) else S x)
        (log ++ [⟨owner n, .create n rnd, ((GroupCall.create n rnd).run (emptied (S (owner n)) n)).result⟩])

/-- The announcement that the owner of a name made last. -/
def LastAnnounced (n : SenderKeyName) (log : RoomLog M) (d : SenderKeyDistributionMessage) : Prop :=
  ∃ pre e post rnd d0, log = pre ++ e :: post ∧ e.call = .create n rnd ∧ e.reply = .ok (.distribution d0) ∧
    SenderKeyDistributionMessage.parse d0.serialized = .ok d ∧ ∀ d', ¬ Announced n post d'

end Axolotl.Spec
