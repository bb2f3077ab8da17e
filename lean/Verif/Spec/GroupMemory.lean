import Verif.Model.InMemory
import Verif.Spec.GroupCalls

/-!
# What a group store holds, and the group store in memory
-/

namespace Axolotl
variable [C : Crypto]

/-- Run a group call against the store in memory: load, work, store. -/
def GroupCall.runMem (m : MemSenderKeys) (c : GroupCall) : Res GroupReply × MemSenderKeys :=
  match m.loadSenderKey c.name with
  | .error e => (.error e, m)
  | .ok r =>
    let o := c.run fun _ => r
    (o.result, match o.stored with | none => m | some r' => m.storeSenderKey c.name r')

/-- The replies of a history on the store in memory. -/
def GroupCall.repliesMem : MemSenderKeys → List GroupCall → List (Res GroupReply)
  | _, [] => []
  | m, c :: cs => (c.runMem m).1 :: GroupCall.repliesMem (c.runMem m).2 cs

/-- The store after it. -/
def GroupCall.afterMem (m : MemSenderKeys) (cs : List GroupCall) : MemSenderKeys := cs.foldl (fun m c => (c.runMem m).2) m

namespace Spec

omit C in
/-- The number of message keys a record keeps for iterations that were skipped. -/
def keptSeeds (r : SenderKeyRecord) : Nat := (r.senderKeyStates.map fun s => s.senderMessageKeys.length).sum

omit C in
/-- Sender keys of 32 bytes, and public keys of 32 bytes, in what is created and in what is processed. -/
def GroupKeys32 : GroupCall → Prop
  | .process _ m => m.chainKey.length = 32 ∧ m.signatureKey.length = 32
  | .create _ rnd => rnd.senderKey.length = 32
  | _ => True

end Spec
end Axolotl
