import Verif.Spec.Removal
import Verif.Spec.FirstUse

/-!
# First conversations in whole systems

As in `Verif.Spec.FirstUse`, but for any number of parties and conversations over shared stores, with groups: conversations begin between
parties that had no session with each other, whose applications trust a name's first identity key and no other after it.
-/

namespace Axolotl.Spec
variable [C : Crypto] {P : Type}

/-- What an attacker may deliver to side `b` of a first conversation who computes it from what they have; nothing is assumed about older
sessions, nor about whom our applications trust once they have their sessions. -/
def Composes (t : Chat P) (n : Net) (b : Bool) (type : Nat) (bytes : Bytes) : Prop :=
  ∃ (key : KeyName → Bytes) (top spkId : Nat) (l : Leak), Named key top spkId t.cv n ∧ Outside l t.cv spkId b ∧
    Compose key top spkId t.cv n l b type bytes

/-- The conversation that begins with the event, if one does, is the first between its two sides. -/
def FirstStarts (s s' : System P) : Prop := ∀ t ∈ s'.chats.drop s.chats.length, First t.cv (t.net s'.world)

/-- What can come of any stores in which no conversation has begun, if every conversation begins as a first one. -/
inductive FirstReachBy [DecidableEq P] (A : Chat P → Net → Bool → Nat → Bytes → Prop) : System P → Prop
  | init {world : P → World} : FirstReachBy A { world := world, chats := [] }
  | step {s s' : System P} {e : SysEvent P} : FirstReachBy A s → SysStepBy A s e s' → FirstStarts s s' → FirstReachBy A s'

/-- One event of a society as in `Verif.Spec.Removal`; `A` says what an attacker may deliver in a conversation. -/
inductive SocietyStepBy [DecidableEq P] (A : Chat P → Net → Bool → Nat → Bytes → Prop) (owner : SenderKeyName → P)
    (enc : SenderKeyName → Bytes → Bytes) (safe : SenderKeyName → Nat → Prop) : Society P → Society P → Prop
  | talk {a : Society P} {e : SysEvent P} {sys : System P} :
      SysStepBy A a.sys e sys → HonestEvent owner enc a.log e →
      SocietyStepBy A owner enc safe a ⟨sys, a.groups, a.log, noted a.inbox e⟩
  | group {a : Society P} (m : P) (c : GroupCall) :
      RenewSocietyAllowed owner enc safe a m c →
      SocietyStepBy A owner enc safe a
        ⟨a.sys, fun x => if x = m then c.next (a.groups m) else a.groups x, a.log ++ [⟨m, c, (c.run (a.groups m)).result⟩], a.inbox⟩
  | renew {a : Society P} (n : SenderKeyName) (rnd : GroupSessionBuilder.CreateRand) :
      rnd.senderKey.length = 32 → rnd.signSeed.length = 32 → rnd.keyId < 2 ^ 32 → (∀ d, Announced n a.log d → d.id ≠ rnd.keyId) →
      SocietyStepBy A owner enc safe a
        ⟨a.sys, fun x => if x = owner n then (GroupCall.create n rnd).next (emptied (a.groups (owner n)) n) else a.groups x,
          a.log ++ [⟨owner n, .create n rnd, ((GroupCall.create n rnd).run (emptied (a.groups (owner n)) n)).result⟩], a.inbox⟩

inductive FSocietyReach [DecidableEq P] (owner : SenderKeyName → P) (enc : SenderKeyName → Bytes → Bytes)
    (safe : SenderKeyName → Nat → Prop) : Society P → Prop
  | init {world : P → World} : FSocietyReach owner enc safe ⟨⟨world, []⟩, fun _ => GroupStore.empty, [], fun _ => []⟩
  | step {a a' : Society P} : FSocietyReach owner enc safe a → SocietyStepBy Composes owner enc safe a a' →
      FirstStarts a.sys a'.sys → FSocietyReach owner enc safe a'

end Axolotl.Spec
