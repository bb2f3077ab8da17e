import Verif.Spec.System
import Verif.Spec.Room

/-!
# Groups whose keys are announced in conversations

The parties of `Verif.Spec.System` are also members of groups as in `Verif.Spec.Room`.  The owner of a name sends the announcements
of its sender keys to the others as messages in the conversations with them; a member processes an announcement only if it got it
from the owner of the name.  How an announcement and its name are written as a plaintext (`enc`) is up to the application.
-/

namespace Axolotl.Spec
variable [C : Crypto] {P : Type} [DecidableEq P]

/-- The conversations, the sender-key stores and the log of group calls, and what each party has decrypted so far and as coming from
whom. -/
structure Society (P : Type) where
  sys : System P
  groups : P → GroupStore
  log : RoomLog P
  inbox : P → List (P × Bytes)

omit [DecidableEq P] in
/-- The bytes were returned by `create` for this name. -/
def CreatedFor (n : SenderKeyName) (log : RoomLog P) (x : Bytes) : Prop :=
  ∃ e ∈ log, ∃ rnd d, e.call = .create n rnd ∧ e.reply = .ok (.distribution d) ∧ d.serialized = x

/-- What is decrypted goes to the inbox. -/
def noted (inbox : P → List (P × Bytes)) : SysEvent P → P → List (P × Bytes)
  | .received m p (.ok pt) => upd inbox m (inbox m ++ [(p, pt)])
  | _ => inbox

/-- The owner of a name sends as its announcements only what `create` returned for it. -/
def HonestEvent (owner : SenderKeyName → P) (enc : SenderKeyName → Bytes → Bytes) (log : RoomLog P) : SysEvent P → Prop
  | .sent p _ pt => ∀ n x, pt = enc n x → owner n = p → CreatedFor n log x
  | _ => True

/-- As in `RoomAllowed`, but announcements are taken from the inbox. -/
def SocietyAllowed (owner : SenderKeyName → P) (enc : SenderKeyName → Bytes → Bytes) (a : Society P) (m : P) :
    GroupCall → Res GroupReply → Prop
  | .process n d, _ => ∃ x, (owner n, enc n x) ∈ a.inbox m ∧ SenderKeyDistributionMessage.parse x = .ok d
  | c, r => RoomAllowed owner a.log m c r

inductive SocietyStep (owner : SenderKeyName → P) (enc : SenderKeyName → Bytes → Bytes) : Society P → Society P → Prop
  /-- something happens in the conversations -/
  | talk {a : Society P} {e : SysEvent P} {sys : System P} :
      SysStep a.sys e sys → HonestEvent owner enc a.log e →
      SocietyStep owner enc a ⟨sys, a.groups, a.log, noted a.inbox e⟩
  /-- a member makes a group call -/
  | group {a : Society P} (m : P) (c : GroupCall) :
      SocietyAllowed owner enc a m c (c.run (a.groups m)).result →
      SocietyStep owner enc a
        ⟨a.sys, fun x => if x = m then c.next (a.groups m) else a.groups x, a.log ++ [⟨m, c, (c.run (a.groups m)).result⟩], a.inbox⟩

/-- From any stores for conversations, with no conversation begun, and empty stores for groups. -/
inductive SocietyReach (owner : SenderKeyName → P) (enc : SenderKeyName → Bytes → Bytes) : Society P → Prop
  | init {world : P → World} : SocietyReach owner enc ⟨⟨world, []⟩, fun _ => GroupStore.empty, [], fun _ => []⟩
  | step {a a' : Society P} : SocietyReach owner enc a → SocietyStep owner enc a a' → SocietyReach owner enc a'

end Axolotl.Spec
