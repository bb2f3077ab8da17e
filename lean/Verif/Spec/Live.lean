import Verif.Model.Live
import Verif.Spec.Session
import Verif.Spec.Group

/-!
# Stores that hand out the object they keep: vocabulary

A record object carries an attribute `fresh`: true for an object made with `SessionRecord()`, false for one made from stored bytes
(axolotl/state/sessionrecord.py:14-29).
-/

namespace Axolotl.Spec
variable [C : Crypto]

/-- The stores without the attribute `fresh` of the record objects. -/
def unmarked (w : World) : World := { w with sessions := fun a => (w.sessions a).map fun r => { r with fresh := false } }

/-- The record object for this address, if there is one, was made from stored bytes. -/
def reloaded (w : World) (a : Address) : Prop := ∀ r, w.sessions a = some r → r.fresh = false

/-- The states that archiving the current one leaves in the archive. -/
def archivedStates (r : SessionRecord) : List SessionS := if (states r).length > 40 then (states r).dropLast else states r

/-- Calls that may set up a session. -/
def setsUp : Call → Prop
  | .decryptPkmsg .. | .processBundle .. | .processKeyExchange .. => True
  | _ => False

/-- What a call that raised an exception may have done to a record object made from stored bytes. -/
inductive Spoilt (c : Call) (r r' : SessionRecord) : Prop
  /-- the send counter was at its last value: the key of the sending chain has changed, the counter has not -/
  | sending : (∃ a pt, c = .encrypt a pt) → 2 ^ 32 ≤ sendCounter r.sessionState + 1 →
      sendCounter r'.sessionState = sendCounter r.sessionState → withoutSendKey r'.sessionState = withoutSendKey r.sessionState →
      r'.previousStates = r.previousStates → Spoilt c r r'
  /-- a session has been set up, or part of one; the one that was current is in the archive -/
  | setup : setsUp c → r'.previousStates = archivedStates r → Spoilt c r r'

/-- Calls that do the same on an object as on a copy: sending while the counter is not at its last value, receiving in a known
session, starting a key exchange, and setting up the first session. -/
def plain (w : World) : Call → Prop
  | .encrypt a _ => ∀ r, w.sessions a = some r → sendCounter r.sessionState + 1 < 2 ^ 32
  | .decryptMsg .. | .initKeyExchange .. => True
  | .decryptPkmsg a m _ _ => ∀ r, w.sessions a = some r → knowsBaseKey r m.version m.baseKey
  | .processBundle a .. | .processKeyExchange a .. => w.sessions a = none

/-- Every call of the history is `plain` when it is made. -/
def allPlain : World → List Call → Prop
  | _, [] => True
  | w, c :: cs => plain w c ∧ allPlain (c.next w) cs

/-- The call raises an exception although the message is signed with the key the record has for it. -/
def signedFailure (g : GroupStore) : GroupCall → Prop
  | .decrypt n b => (∃ e, (GroupCipher.decrypt g n b).result = .error e) ∧
      ∃ m s k, SenderKeyMessage.parse b = .ok m ∧ stateFor (g n) m.keyId = some s ∧
        Curve.decodePoint ((s.senderSigningKey.getD {}).pub.getD []) = .ok k ∧ m.verifySignature k = .ok ()
  | _ => False

/-- No call of the history is such a failure. -/
def noSignedFailure : GroupStore → List GroupCall → Prop
  | _, [] => True
  | g, c :: cs => ¬ signedFailure g c ∧ noSignedFailure (c.next g) cs

end Axolotl.Spec
