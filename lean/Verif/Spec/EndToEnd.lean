import Verif.Spec.Society
import Verif.Spec.Forge
import Verif.Spec.GroupForge

/-!
# Conversations and groups with one attacker

The society of `Verif.Spec.Society`, with an attacker who computes what they send, in the conversations as in `Verif.Spec.Forge` and in
the groups as in `Verif.Spec.GroupForge`, and what they can read who have stolen something at some moment.
-/

namespace Axolotl.Spec
variable [C : Crypto] {P : Type}

/-- What an attacker may deliver to side `b` of a conversation who computes it from what they have; what must not have leaked is said
by `Outside`. -/
def Crafts (t : Chat P) (n : Net) (b : Bool) (type : Nat) (bytes : Bytes) : Prop :=
  ∃ (key : KeyName → Bytes) (top spkId : Nat) (l : Leak), Named key top spkId t.cv n ∧ Outside l t.cv spkId b ∧
    Craft key top spkId t.cv n l b type bytes

/-- As in `SocietyAllowed`, but the group messages come from an attacker who computes. -/
def CraftSocietyAllowed (owner : SenderKeyName → P) (enc : SenderKeyName → Bytes → Bytes) (a : Society P) (m : P) : GroupCall → Prop
  | .process n d => ∃ x, (owner n, enc n x) ∈ a.inbox m ∧ SenderKeyDistributionMessage.parse x = .ok d
  | c => CraftAllowed owner a.log m c

inductive CSocietyStep [DecidableEq P] (owner : SenderKeyName → P) (enc : SenderKeyName → Bytes → Bytes) : Society P → Society P → Prop
  | talk {a : Society P} {e : SysEvent P} {sys : System P} :
      SysStepBy Crafts a.sys e sys → HonestEvent owner enc a.log e →
      CSocietyStep owner enc a ⟨sys, a.groups, a.log, noted a.inbox e⟩
  | group {a : Society P} (m : P) (c : GroupCall) :
      CraftSocietyAllowed owner enc a m c →
      CSocietyStep owner enc a
        ⟨a.sys, fun x => if x = m then c.next (a.groups m) else a.groups x, a.log ++ [⟨m, c, (c.run (a.groups m)).result⟩], a.inbox⟩

inductive CSocietyReach [DecidableEq P] (owner : SenderKeyName → P) (enc : SenderKeyName → Bytes → Bytes) : Society P → Prop
  | init {world : P → World} : CSocietyReach owner enc ⟨⟨world, []⟩, fun _ => GroupStore.empty, [], fun _ => []⟩
  | step {a a' : Society P} : CSocietyReach owner enc a → CSocietyStep owner enc a a' → CSocietyReach owner enc a'

/-! ## What is stolen -/

/-- Whose session states and whose sender-key records the attacker reads, which private keys they have of each conversation, and
which plaintexts of conversations and of the group. -/
structure Loot (P : Type) where
  sessions : P → Prop
  records : P → Prop
  keys : Chat P → KeyName → Prop
  texts : Chat P → Bool → Nat → Prop
  said : Nat → Prop

/-- With the names `key` and the ratchet keys up to `top`, the attacker can compute the plaintext of message number `i` of side `b`
of a conversation.  A party that has not answered yet has no session state of it. -/
def ChatOpened (key : KeyName → Bytes) (top : Nat) (world : P → World) (loot : Loot P) (t : Chat P) (b : Bool) (i : Nat) : Prop :=
  Derives ((theft key top t.cv (t.net world) (fun c => loot.sessions (t.party c) ∧ (t.net world).joined t.cv c) (loot.keys t)
    (loot.texts t)).Has t.cv.setup (Placed key top (t.net world))) (.text b i)

/-- The plaintext is the announcement of the key of a name, made when `k` messages had been sent under it. -/
def AnnouncesKey (enc : SenderKeyName → Bytes → Bytes) (n : SenderKeyName) (log : RoomLog P) (k : Nat) (pt : Bytes) : Prop :=
  ∃ pre e post rnd d, log = pre ++ e :: post ∧ e.call = .create n rnd ∧ e.reply = .ok (.distribution d) ∧
    pt = enc n d.serialized ∧ (sentUnder n pre).length = k

/-- The attacker can read message number `i` of a group: from the records they have, and from the announcements of the name in those
messages of conversations that they can read, whoever sent them. -/
def GroupOpened (names : Chat P → (KeyName → Bytes) × Nat) (enc : SenderKeyName → Bytes → Bytes) (headers : Nat → Bytes) (loot : Loot P)
    (a : Society P) (n : SenderKeyName) (i : Nat) : Prop :=
  GDerives ((groupTheft n a.groups loot.records (fun k => ∃ t ∈ a.sys.chats, ∃ (b : Bool) (j : Nat) (c : Ciphertext) (pt : Bytes),
    (t.sent b)[j]? = some (c, pt) ∧ AnnouncesKey enc n a.log k pt ∧ ChatOpened (names t).1 (names t).2 a.sys.world loot t b j)
    loot.said).Has headers (sentUnder n a.log).length) (.text i)

/-- The session state of the recipient opens message number `i` of side `!b`: it has not been accepted, and its chain, if there is one,
has not been dropped. -/
def StillOpens (world : P → World) (t : Chat P) (b : Bool) (i : Nat) (c : Ciphertext) : Prop :=
  (t.net world).joined t.cv b ∧ i ∉ t.accepted b ∧
    ((header c).1 ∈ seenKeys (t.cv.start b) ((t.net world).log b) → retained (seenKeys (t.cv.start b) ((t.net world).log b)) (header c).1)

end Axolotl.Spec
