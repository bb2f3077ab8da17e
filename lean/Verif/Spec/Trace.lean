import Verif.Spec.Work
import Verif.Spec.Active
import Verif.Spec.Version2Session

/-!
# The order in which the primitives are used
-/

namespace Axolotl.Spec
section
variable [C : Crypto]

/-- What one call of the session API does with the primitives, in this order. -/
def callTrace (w : World) (c : Call) : List Op := (Work.run tracing w c).work

/-- The same for one call of the group API. -/
def groupCallTrace (g : GroupStore) (c : GroupCall) : List Op := (Work.groupRun tracing g c).work

/-- A block is decrypted. -/
def Deciphers : Op → Prop
  | .aesDec .. => True
  | _ => False

/-- The MAC keys a state of either version offers for a message of its peer; there are none if it is neither of version 2 nor of version 3. -/
def MacUnder (s : SessionS) (eph : ECPub) (n : Nat) (macKey : Bytes) : Prop :=
  (versionOf s = 3 ∧ MacKey s eph n macKey) ∨ (versionOf s = 2 ∧ ∃ cipherKey iv, MessageKey2 s eph n cipherKey macKey iv)

/-- What a stored state that can send offers for the MAC of a message from its peer: a MAC key for the ratchet key and the counter in the message, and the
identity keys of the two sides. -/
def MacFrom (s : SessionS) (m : WhisperMessage) (macKey : Bytes) (sender receiver : ECPub) : Prop :=
  s.senderChain.isSome ∧ MacUnder s m.senderRatchetKey m.counter macKey ∧ KeyOf s.remoteIdentityPublic sender ∧
    KeyOf s.localIdentityPublic receiver

/-- What a stored state uses for the MAC of the next message to its peer. -/
def MacTo (s : SessionS) (macKey : Bytes) (sender receiver : ECPub) : Prop :=
  ((versionOf s = 3 ∧ macKey = macKeyOf (sendKey s)) ∨ (versionOf s = 2 ∧ macKey = macKeyOf2 (sendKey s))) ∧ KeyOf s.localIdentityPublic sender ∧ KeyOf s.remoteIdentityPublic receiver

/-- A version-2 message whose last eight bytes are a MAC of the bytes before them, with a key that the version-2 state has for it. -/
def Verifies2 (s : SessionS) (m : WhisperMessage) : Prop :=
  ∃ cipherKey macKey iv body, MessageKey2 s m.senderRatchetKey m.counter cipherKey macKey iv ∧ m.serialized = body ++ (C.hmac macKey body).take 8

/-- The last thing done was to compute the MAC of the message, with a key and identities that are `fit`, and it is the one in the message:
its last eight bytes. -/
def MacFound (fit : Bytes → ECPub → ECPub → Prop) (m : WhisperMessage) (before : List Op) : Prop :=
  ∃ (earlier : List Op) (macKey : Bytes) (sender receiver : ECPub) (body mac : Bytes), fit macKey sender receiver ∧
    before = earlier ++ [.hmac macKey ((if m.messageVersion ≥ 3 then (5 :: sender) ++ (5 :: receiver) else []) ++ body)] ∧
    m.serialized = body ++ mac ∧ mac.length = 8 ∧
    (C.hmac macKey ((if m.messageVersion ≥ 3 then (5 :: sender) ++ (5 :: receiver) else []) ++ body)).take 8 = mac

/-- First everything else, then, if the MAC was found, the decryption of blocks, all under one key. -/
def MacThenDecrypt (fit : Bytes → ECPub → ECPub → Prop) (m : WhisperMessage) (trace : List Op) : Prop :=
  ∃ before blocks key, trace = before ++ blocks ∧ (∀ o ∈ before, ¬ Deciphers o) ∧ (∀ o ∈ blocks, ∃ b, o = .aesDec key b) ∧
    (blocks ≠ [] → MacFound fit m before)

/-- Nothing is done before the check of a signature, and nothing after it unless the signature is right. -/
def SignatureFirst (key : ECPub) (data sig : Bytes) (trace : List Op) : Prop :=
  trace = [] ∨ ∃ rest, trace = .verifySig key data sig :: rest ∧ (rest ≠ [] → C.verifySig key data sig = some true)

/-- How often each primitive is used in a trace. -/
def total : List Op → Tally
  | [] => .none
  | o :: rest => o.tally + total rest

/-- Which primitive is used. -/
inductive Kind where
  | hmac | genPriv | genPub | dh | verifySig | calcSig | aesEnc | aesDec
deriving DecidableEq, Repr

/-- What can be seen of a use by someone who does not see its arguments. -/
def kind : Op → Kind
  | .hmac .. => .hmac
  | .genPriv .. => .genPriv
  | .genPub .. => .genPub
  | .dh .. => .dh
  | .verifySig .. => .verifySig
  | .calcSig .. => .calcSig
  | .aesEnc .. => .aesEnc
  | .aesDec .. => .aesDec

end
end Axolotl.Spec
