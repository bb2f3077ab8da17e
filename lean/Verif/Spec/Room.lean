import Verif.Spec.Group

/-!
# Groups as a whole

Any number of members, each with a sender-key store of its own, and any number of groups.  A sender-key name (a group and a sender)
belongs to one member.  What happens is a list of calls, each made by some member, with what it returned; everything below is read
off this list.
-/

namespace Axolotl.Spec
variable [C : Crypto]

/-- A call, who made it and what it returned. -/
structure RoomEntry (M : Type) where
  member : M
  call : GroupCall
  reply : Res GroupReply

/-- What has happened so far, the latest last. -/
abbrev RoomLog (M : Type) := List (RoomEntry M)

variable {M : Type} [DecidableEq M]

/-- The messages sent under a name, in order. -/
def sentUnder (n : SenderKeyName) (log : RoomLog M) : List GroupSent :=
  log.filterMap fun e => match e.call, e.reply with
    | .encrypt n' pt _, .ok (.bytes b) => if n' = n then some ⟨n, pt, b⟩ else none
    | _, _ => none

/-- The announcements a member has processed under a name, in order. -/
def heardBy (m : M) (n : SenderKeyName) (log : RoomLog M) : List SenderKeyDistributionMessage :=
  log.filterMap fun e => match e.call, e.reply with
    | .process n' d, .ok _ => if e.member = m ∧ n' = n then some d else none
    | _, _ => none

/-- What a member has accepted under a name: the bytes and the plaintext, in order. -/
def readBy (m : M) (n : SenderKeyName) (log : RoomLog M) : List (Bytes × Bytes) :=
  log.filterMap fun e => match e.call, e.reply with
    | .decrypt n' b, .ok (.bytes pt) => if e.member = m ∧ n' = n then some (b, pt) else none
    | _, _ => none

/-- The bytes of `d` were returned by `create` for this name when `k` messages had been sent under it. -/
def AnnouncedAt (n : SenderKeyName) (log : RoomLog M) (k : Nat) (d : SenderKeyDistributionMessage) : Prop :=
  ∃ pre e post rnd d0, log = pre ++ e :: post ∧ e.call = .create n rnd ∧ e.reply = .ok (.distribution d0) ∧
    SenderKeyDistributionMessage.parse d0.serialized = .ok d ∧ (sentUnder n pre).length = k

/-- The same message, perhaps with another signature. -/
def SameBody (b b' : Bytes) : Prop := ∃ body sig sig', b = body ++ sig ∧ b' = body ++ sig' ∧ sig.length = 64 ∧ sig'.length = 64

/-- What the members and the network may do.  Only the owner of a name creates a sender key for it; announcements arrive as they
were made, by a channel that nobody can write to; group messages may be anything, but nobody can sign for the owner: bytes that
are accepted have been sent, up to the signature. -/
def RoomAllowed (owner : SenderKeyName → M) (log : RoomLog M) (m : M) : GroupCall → Res GroupReply → Prop
  | .encrypt _ pt rand, _ => pt.length < 2 ^ 62 ∧ rand.length = 64
  | .create n rnd, _ => m = owner n ∧ rnd.senderKey.length = 32 ∧ rnd.signSeed.length = 32
  | .process n d, _ => ∃ k, AnnouncedAt n log k d
  | .decrypt n b, r => ∀ x, r = .ok x → ∃ y ∈ sentUnder n log, SameBody b y.bytes

/-- The stores and the log that can come about, from empty stores. -/
inductive RoomReach (owner : SenderKeyName → M) : (M → GroupStore) → RoomLog M → Prop
  | start : RoomReach owner (fun _ => GroupStore.empty) []
  | call {S : M → GroupStore} {log : RoomLog M} (m : M) (c : GroupCall) :
      RoomReach owner S log → RoomAllowed owner log m c (c.run (S m)).result →
      RoomReach owner (fun x => if x = m then c.next (S m) else S x) (log ++ [⟨m, c, (c.run (S m)).result⟩])

end Axolotl.Spec
