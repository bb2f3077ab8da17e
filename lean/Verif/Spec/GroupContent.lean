import Verif.Spec.Room
import Verif.Spec.Format

/-!
# The same group with other words

What two runs of a group have in common in which the same members make the same calls in the same order, with the same randomness,
and only the plaintexts differ.
-/

namespace Axolotl.Spec
variable [C : Crypto] {M : Type} [DecidableEq M]

/-- A call that neither sent nor read a message: an announcement made or processed, or a call that was refused. -/
def Wordless (e : RoomEntry M) : Prop :=
  match e.call, e.reply with
  | .encrypt _ _ _, .ok _ => False
  | .decrypt _ _, .ok _ => False
  | _, _ => True

/-- Two group messages with the same key id and iteration that differ at most in the ciphertext and the signature. -/
def SameFrame (b b' : Bytes) : Prop :=
  ∃ id it ct ct' sig sig', b = groupMessage id it ct ++ sig ∧ b' = groupMessage id it ct' ++ sig' ∧ sig.length = 64 ∧ sig'.length = 64 ∧
    (∃ m, SenderKeyMessage.parse b = .ok m ∧ m.keyId = id ∧ m.iteration = it) ∧
    (∃ m, SenderKeyMessage.parse b' = .ok m ∧ m.keyId = id ∧ m.iteration = it)

/-- Two logs of the same events.  In the second the message number `i` under the name `n` says `say n i`, in the first anything.
Calls that sent and read nothing are in both, with the same replies.  Where a message was sent, the same member sends one under the
same name with the same randomness, of the same frame, and as long if and only if the plaintexts take up the same number of blocks.
Where a member read (a message that is up to its signature) message number `i`, it reads message number `i` in the second too. -/
inductive RoomRetold (say : SenderKeyName → Nat → Bytes) : RoomLog M → RoomLog M → Prop
  | start : RoomRetold say [] []
  | same {log log' : RoomLog M} (e : RoomEntry M) : RoomRetold say log log' → Wordless e → RoomRetold say (log ++ [e]) (log' ++ [e])
  | sent {log log' : RoomLog M} (m : M) (n : SenderKeyName) (pt rand b b' : Bytes) : RoomRetold say log log' → SameFrame b b' →
      (b.length = b'.length ↔ pt.length / 16 = (say n (sentUnder n log).length).length / 16) →
      RoomRetold say (log ++ [⟨m, .encrypt n pt rand, .ok (.bytes b)⟩])
        (log' ++ [⟨m, .encrypt n (say n (sentUnder n log).length) rand, .ok (.bytes b')⟩])
  | read {log log' : RoomLog M} (m : M) (n : SenderKeyName) (i : Nat) (x x' : GroupSent) (b : Bytes) : RoomRetold say log log' →
      (sentUnder n log)[i]? = some x → (sentUnder n log')[i]? = some x' → SameBody b x.bytes →
      RoomRetold say (log ++ [⟨m, .decrypt n b, .ok (.bytes x.plaintext)⟩])
        (log' ++ [⟨m, .decrypt n x'.bytes, .ok (.bytes x'.plaintext)⟩])

/-- What a member read in the one run and in the other: the message of the same number, in each run with what was said in it. -/
def ReadAlike (n : SenderKeyName) (log log' : RoomLog M) (p p' : Bytes × Bytes) : Prop :=
  ∃ (i : Nat) (x x' : GroupSent), (sentUnder n log)[i]? = some x ∧ (sentUnder n log')[i]? = some x' ∧ SameBody p.1 x.bytes ∧
    p.2 = x.plaintext ∧ p' = (x'.bytes, x'.plaintext)

end Axolotl.Spec
