import Verif.Spec.FirstSociety
import Verif.Spec.Recovery

/-!
# After a theft in a whole society

At one moment an attacker reads the session states and the sender-key records of all parties.  Later the conversations have moved on as
in `Verif.Spec.Recovery`, and the owners of names have renewed their keys as in `Verif.Spec.Removal`.
-/

namespace Axolotl.Spec
variable [C : Crypto] {P : Type}

/-- The conversation `t` had begun in `s1`, and was `t1` then. -/
def WasThen (s1 : System P) (t t1 : Chat P) : Prop := t1 ∈ s1.chats ∧ t1.party = t.party ∧ t1.cv = t.cv

/-- What an attacker may deliver to side `b` of a conversation who has got all that was there at `s1`: as before, or, if the side has
recovered, what they compute from what leaked then too.  The keys for a new setup have not leaked. -/
def ThiefCrafts (s1 : System P) (t : Chat P) (n : Net) (b : Bool) (type : Nat) (bytes : Bytes) : Prop :=
  Crafts t n b type bytes ∨
  ∃ t1, WasThen s1 t t1 ∧ ∃ (key : KeyName → Bytes) (top1 top spkId : Nat) (l : Leak), Timed key top1 top spkId t.cv (t1.net s1.world) n ∧
    l.UpTo top1 ∧ Spared l t.cv spkId b ∧ Recovered t.cv (t1.net s1.world) n b ∧ Craft key top spkId t.cv n l b type bytes

/-- What can come of a system after a theft at `s1`. -/
inductive ThiefReach [DecidableEq P] (s1 : System P) : System P → Prop
  | theft : ThiefReach s1 s1
  | step {s s' : System P} {e : SysEvent P} : ThiefReach s1 s → SysStepBy (ThiefCrafts s1) s e s' → ThiefReach s1 s'

/-- What can come of a society after a theft at `a1`; only the sender keys announced since are safe. -/
inductive TSocietyReach [DecidableEq P] (owner : SenderKeyName → P) (enc : SenderKeyName → Bytes → Bytes) (a1 : Society P) : Society P → Prop
  | theft : TSocietyReach owner enc a1 a1
  | step {a a' : Society P} : TSocietyReach owner enc a1 a → SocietyStepBy (ThiefCrafts a1.sys) owner enc (Unannounced a1.log) a a' →
      TSocietyReach owner enc a1 a'

/-! ## What the thief reads later -/

/-- Names of the keys of a conversation, the number of its ratchet keys at the theft and now. -/
structure Naming where
  key : KeyName → Bytes
  before : Nat
  now : Nat

/-- The thief can compute the plaintext of message number `i` of side `b` of a conversation, from the session states at `s1` of the parties
in `loot.sessions`, if the conversation had begun then, the private keys and plaintexts they have of it, and all its messages so far. -/
def OpenedSince (na : Naming) (s1 s : System P) (loot : Loot P) (t : Chat P) (b : Bool) (i : Nat) : Prop :=
  (∃ t1, WasThen s1 t t1 ∧
    Derives ((theft na.key na.before t.cv (t1.net s1.world) (fun c => loot.sessions (t.party c) ∧ (t1.net s1.world).joined t.cv c) (loot.keys t)
      (loot.texts t)).Has t.cv.setup (Placed na.key na.now (t.net s.world))) (.text b i)) ∨
  ((¬ ∃ t1, WasThen s1 t t1) ∧
    Derives ((theft na.key na.now t.cv (t.net s.world) (fun _ => False) (loot.keys t) (loot.texts t)).Has t.cv.setup
      (Placed na.key na.now (t.net s.world))) (.text b i))

/-- The thief can read message number `i` under one key of a name: from the records at `a1` of the parties in `loot.records`, and from the
announcements of this key in those messages of conversations that they can read. -/
def KeyOpenedSince (names : Chat P → Naming) (enc : SenderKeyName → Bytes → Bytes) (headers : Nat → Bytes) (loot : Loot P) (a1 a : Society P)
    (n : SenderKeyName) (id : Nat) (i : Nat) : Prop :=
  GDerives ((groupTheft n (onlyKey n id a1.groups) loot.records (fun k => ∃ t ∈ a.sys.chats, ∃ (b : Bool) (j : Nat) (c : Ciphertext)
    (pt : Bytes), (t.sent b)[j]? = some (c, pt) ∧ AnnouncesKey enc n (ofKey n id a.log) k pt ∧ OpenedSince (names t) a1.sys a.sys loot t b j)
    loot.said).Has headers (sentUnder n (ofKey n id a.log)).length) (.text i)

/-- Message number `i` of side `b` was sent under a ratchet key that came at least two after those of the theft. -/
def Mended (na : Naming) (n : Net) (b : Bool) (i : Nat) : Prop := ∃ j k, Placed na.key na.now n b i j k ∧ na.before + 2 ≤ j

end Axolotl.Spec
