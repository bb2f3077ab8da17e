import Verif.Spec.Trace

/-!
# What becomes of the random bytes

In the code randomness is drawnBy where it is used; in the model it is given to the call.  Two primitives take random bytes: the generation of
a private key and the computation of a signature.
-/

namespace Axolotl.Spec
variable [C : Crypto]

/-- The random bytes that one use of a primitive takes. -/
def drawnBy : Op → List Bytes
  | .genPriv random => [random]
  | .calcSig random _ _ => [random]
  | _ => []

/-- The random bytes taken, in order. -/
def draws (trace : List Op) : List Bytes := trace.flatMap drawnBy

/-- The randomness of a call of the session API, in the order in which the code draws it: a key pair for each state that is tried, the base
key and the ratchet key of a session begun, the two key pairs of a key exchange, the sending ratchet key and the signature. -/
def randomness (w : World) : Call → List Bytes
  | .encrypt _ _ => []
  | .decryptMsg a _ s ss => s :: (List.range (w.loadSession a).previousStates.length).map ss
  | .decryptPkmsg a _ s ss => s :: (List.range (states (w.loadSession a)).length).map ss
  | .processBundle _ _ s1 s2 => [s1, s2]
  | .processKeyExchange _ _ r => [r.baseSeed, r.ratchetSeed, r.sendSeed, r.sigRand]
  | .initKeyExchange _ _ s1 s2 s3 => [s1, s2, s3]

/-- The same for the group API: the signature of a message, the signing key of a new sender key.  (The id and the chain key of a new sender
key are random too, but go through no primitive.) -/
def groupRandomness : GroupCall → List Bytes
  | .encrypt _ _ rand => [rand]
  | .create _ rnd => [rnd.signSeed]
  | _ => []

/-- The random bytes taken in a history, in order. -/
def historyDraws : World → List Call → List Bytes
  | _, [] => []
  | w, c :: cs => draws (callTrace w c) ++ historyDraws (c.next w) cs

/-- The randomness of a history. -/
def historyRandomness : World → List Call → List Bytes
  | _, [] => []
  | w, c :: cs => randomness w c ++ historyRandomness (c.next w) cs

/-- The random bytes taken in a history of group calls. -/
def groupHistoryDraws : GroupStore → List GroupCall → List Bytes
  | _, [] => []
  | g, c :: cs => draws (groupCallTrace g c) ++ groupHistoryDraws (c.next g) cs

/-- A state that has a chain for the ratchet key of a message already. -/
def HasChainFor (m : WhisperMessage) (s : SessionS) : Prop := ∃ c ∈ s.receiverChains, KeyOf c.senderRatchetKey m.senderRatchetKey

end Axolotl.Spec
