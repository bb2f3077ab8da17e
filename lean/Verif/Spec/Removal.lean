import Verif.Spec.EndToEnd
import Verif.Spec.RenewalForge

/-!
# Groups whose keys are renewed and announced in conversations

The society of `Verif.Spec.EndToEnd`, in which the owners of names renew their keys as in `Verif.Spec.Renewal`: after a renewal the owner
sends the announcement of the new key to whom they choose, which is how a member is removed from a group.
-/

namespace Axolotl.Spec
variable [C : Crypto] {P : Type}

/-- As in `RenewCraftAllowed`, but announcements are taken from the inbox. -/
def RenewSocietyAllowed (owner : SenderKeyName → P) (enc : SenderKeyName → Bytes → Bytes) (safe : SenderKeyName → Nat → Prop)
    (a : Society P) (m : P) : GroupCall → Prop
  | .process n d => m ≠ owner n ∧ ∃ x, (owner n, enc n x) ∈ a.inbox m ∧ SenderKeyDistributionMessage.parse x = .ok d
  | c => RenewCraftAllowed owner safe a.log m c

inductive RSocietyStep [DecidableEq P] (owner : SenderKeyName → P) (enc : SenderKeyName → Bytes → Bytes)
    (safe : SenderKeyName → Nat → Prop) : Society P → Society P → Prop
  /-- something happens in the conversations -/
  | talk {a : Society P} {e : SysEvent P} {sys : System P} :
      SysStepBy Crafts a.sys e sys → HonestEvent owner enc a.log e →
      RSocietyStep owner enc safe a ⟨sys, a.groups, a.log, noted a.inbox e⟩
  /-- a member makes a group call -/
  | group {a : Society P} (m : P) (c : GroupCall) :
      RenewSocietyAllowed owner enc safe a m c →
      RSocietyStep owner enc safe a
        ⟨a.sys, fun x => if x = m then c.next (a.groups m) else a.groups x, a.log ++ [⟨m, c, (c.run (a.groups m)).result⟩], a.inbox⟩
  /-- the owner of a name stores an empty record and calls `create`, which draws an id that the name has not had -/
  | renew {a : Society P} (n : SenderKeyName) (rnd : GroupSessionBuilder.CreateRand) :
      rnd.senderKey.length = 32 → rnd.signSeed.length = 32 → rnd.keyId < 2 ^ 32 → (∀ d, Announced n a.log d → d.id ≠ rnd.keyId) →
      RSocietyStep owner enc safe a
        ⟨a.sys, fun x => if x = owner n then (GroupCall.create n rnd).next (emptied (a.groups (owner n)) n) else a.groups x,
          a.log ++ [⟨owner n, .create n rnd, ((GroupCall.create n rnd).run (emptied (a.groups (owner n)) n)).result⟩], a.inbox⟩

inductive RSocietyReach [DecidableEq P] (owner : SenderKeyName → P) (enc : SenderKeyName → Bytes → Bytes)
    (safe : SenderKeyName → Nat → Prop) : Society P → Prop
  | init {world : P → World} : RSocietyReach owner enc safe ⟨⟨world, []⟩, fun _ => GroupStore.empty, [], fun _ => []⟩
  | step {a a' : Society P} : RSocietyReach owner enc safe a → RSocietyStep owner enc safe a a' → RSocietyReach owner enc safe a'

/-- The attacker can read message number `i` under one key of a name: from what the records they have hold of this key, and from the
announcements of this key in those messages of conversations that they can read, whoever sent them. -/
def KeyOpened (names : Chat P → (KeyName → Bytes) × Nat) (enc : SenderKeyName → Bytes → Bytes) (headers : Nat → Bytes) (loot : Loot P)
    (a : Society P) (n : SenderKeyName) (id : Nat) (i : Nat) : Prop :=
  GDerives ((groupTheft n (onlyKey n id a.groups) loot.records (fun k => ∃ t ∈ a.sys.chats, ∃ (b : Bool) (j : Nat) (c : Ciphertext)
    (pt : Bytes), (t.sent b)[j]? = some (c, pt) ∧ AnnouncesKey enc n (ofKey n id a.log) k pt ∧
      ChatOpened (names t).1 (names t).2 a.sys.world loot t b j)
    loot.said).Has headers (sentUnder n (ofKey n id a.log)).length) (.text i)

/-- Nobody has sent an announcement of this key to one of these parties. -/
def NotSentTo (enc : SenderKeyName → Bytes → Bytes) (n : SenderKeyName) (id : Nat) (R : P → Prop) (a : Society P) : Prop :=
  ∀ t ∈ a.sys.chats, ∀ (b : Bool) (j : Nat) (c : Ciphertext) (pt : Bytes) (k : Nat), (t.sent (!b))[j]? = some (c, pt) →
    AnnouncesKey enc n (ofKey n id a.log) k pt → ¬ R (t.party b)

end Axolotl.Spec
