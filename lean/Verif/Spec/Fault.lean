import Verif.Spec.Interleave

/-!
# Store accesses that fail

A store operation may raise an exception of its own (a database error, say).  The `except` clauses around store accesses name
library exceptions only (groupcipher.py:39 and 62, groupsessionbuilder.py:43), so such an exception leaves the call at once.
-/

namespace Axolotl

/-- How a store operation failed: a load; a store or remove that has not been made; one that has been made all the same. -/
inductive Fault where
  | load | lost | made
  deriving DecidableEq, Repr

/-- A run in which access number `k`, counting from 0, raises a foreign exception.  `made` says whether a failing change has been
made all the same.  The result is the fault if the foreign exception left the call, and otherwise what the call returned or
raised. -/
def Prog.faulty {M : Machine} {α : Type} (made : Bool) : Nat → M.State → Prog M α → List M.Change × (Fault ⊕ Res α)
  | _, _, .done r => ([], .inr r)
  | 0, _, .ask _ _ => ([], .inl .load)
  | 0, _, .change x _ => if made then ([x], .inl .made) else ([], .inl .lost)
  | k + 1, s, .ask q f => (f (M.answer s q)).faulty made k s
  | k + 1, s, .change x p => (x :: (p.faulty made k (M.apply s x)).1, (p.faulty made k (M.apply s x)).2)

section
variable [Crypto]
namespace Spec

/-- The stores of a party before and after some calls that all failed because of the store.  `ok` says which faults these were
and restricts the changes the failing calls left behind. -/
inductive Failing (ok : Fault → List Write → Prop) : World → List Call → World → Prop
  | none {w : World} : Failing ok w [] w
  | one {w w' : World} {c : Call} {cs : List Call} {made : Bool} {k : Nat} {f : Fault} {ws : List Write} :
      Prog.faulty (M := Stores) made k w c.prog = (ws, .inl f) → ok f ws → Failing ok (w.applyAll ws) cs w' →
      Failing ok w (c :: cs) w'

/-- The store after a group call, given the changes it made. -/
def senderKeysAfter (g : GroupStore) (xs : List (SenderKeyName × SenderKeyRecord)) : GroupStore := SenderKeys.applyAll g xs

/-- A history of group calls in which store operations fail now and then: the store at the end, and each call with its reply or
the fault that ended it. -/
inductive GroupRun : GroupStore → List (GroupCall × (Fault ⊕ Res GroupReply)) → GroupStore → Prop
  | nil {g : GroupStore} : GroupRun g [] g
  | cons {g g' : GroupStore} {c : GroupCall} {made : Bool} {k : Nat} {rs : List (GroupCall × (Fault ⊕ Res GroupReply))}
      {ws : List (SenderKeyName × SenderKeyRecord)} {r : Fault ⊕ Res GroupReply} :
      Prog.faulty (M := SenderKeys) made k g c.prog = (ws, r) → GroupRun (senderKeysAfter g ws) rs g' → GroupRun g ((c, r) :: rs) g'

omit [Crypto] in
/-- The calls of such a history that got as far as storing what they had to store. -/
def notLost (rs : List (GroupCall × (Fault ⊕ Res GroupReply))) : List (GroupCall × (Fault ⊕ Res GroupReply)) :=
  rs.filter fun x => match x.2 with | .inl .load | .inl .lost => false | _ => true

omit [Crypto] in
/-- The calls that write to the stores once at most. -/
def writesOnce : Call → Prop
  | .encrypt .. | .decryptMsg .. | .initKeyExchange .. => True
  | _ => False

end Spec
end
end Axolotl
