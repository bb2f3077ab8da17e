import Verif.Spec.Ratchet

/-!
# Who else could have written a conversation

Session states written down from the private keys of the *other* side.  None of the functions below takes the private
identity key of the party whose state it writes.
-/

namespace Axolotl.Spec
variable [C : Crypto]

/-- The key material of setup from the recipient's private keys: identity `b`, signed prekey `spk`, one-time prekey
`otk`. -/
def recipientMaterial (b spk : ECPriv) (otk : Option ECPriv) (idA base : ECPub) : Option Bytes := do
  let d1 ← C.dh spk idA
  let d2 ← C.dh b base
  let d3 ← C.dh spk base
  let d4 ← match otk with
    | none => some []
    | some k => C.dh k base
  some (hkdf [] (List.replicate 32 0xFF ++ d1 ++ d2 ++ d3 ++ d4) textInfo 64)

/-- The key material of setup from the initiator's private keys: identity `a` and base key `base`. -/
def initiatorMaterial (a base : ECPriv) (idB spk : ECPub) (otk : Option ECPub) : Option Bytes := do
  let d1 ← C.dh a spk
  let d2 ← C.dh base idB
  let d3 ← C.dh base spk
  let d4 ← match otk with
    | none => some []
    | some k => C.dh base k
  some (hkdf [] (List.replicate 32 0xFF ++ d1 ++ d2 ++ d3 ++ d4) textInfo 64)

/-- The session that the owner of the identity key `idA` has after setup with the bundle of `b`, `spk`, `otk`, written
with the private keys of the bundle: only the public key `idA` is used, and a base key and a ratchet key are drawn from
`baseSeed` and `ratchetSeed`.  `regA`, `regB` are the registration ids. -/
def forgedInitiator (idA : ECPub) (regA regB : Nat) (b : KeyPair) (spkId : Nat) (spk : KeyPair) (otk : Option (Nat × KeyPair))
    (baseSeed ratchetSeed : Bytes) : Option SessionS := do
  let base := C.genPub (C.genPriv baseSeed)
  let okm ← recipientMaterial b.priv spk.priv (otk.map fun p => p.2.priv) idA base
  let secret ← C.dh spk.priv (C.genPub (C.genPriv ratchetSeed))
  some { initiatorState idA b.pub okm spk.pub ratchetSeed secret with
    pendingPreKey := some { preKeyId := otk.map Prod.fst, signedPreKeyId := some (spkId : Int), baseKey := some (5 :: base) }
    localRegistrationId := some regA
    remoteRegistrationId := some regB
    aliceBaseKey := some (5 :: base) }

/-- The session that the recipient has after reading the first message, written with the private keys of the sender: its
identity `a`, the base key and ratchet key drawn from `baseSeed` and `ratchetSeed`.  Of the recipient only public keys are
used; its new ratchet key is drawn from `seedB`. -/
def forgedRecipient (a : KeyPair) (regA regB : Nat) (idB spk : ECPub) (otk : Option ECPub)
    (baseSeed ratchetSeed seedB : Bytes) : Option SessionS := do
  let okm ← initiatorMaterial a.priv (C.genPriv baseSeed) idB spk otk
  let d1 ← C.dh (C.genPriv ratchetSeed) spk
  let d2 ← C.dh (C.genPriv ratchetSeed) (C.genPub (C.genPriv seedB))
  let root := ratchetRoot (okm.take 32) d1
  some {
    sessionVersion := some 3
    localIdentityPublic := some (5 :: idB)
    remoteIdentityPublic := some (5 :: a.pub)
    rootKey := some (ratchetRoot root d2)
    previousCounter := some 0
    receiverChains := [{
      senderRatchetKey := some (5 :: C.genPub (C.genPriv ratchetSeed))
      chainKey := some { key := some (chainAt (ratchetChain (okm.take 32) d1) 1), index := some 1 } }]
    senderChain := some {
      senderRatchetKey := some (5 :: C.genPub (C.genPriv seedB))
      senderRatchetKeyPrivate := some (C.genPriv seedB)
      chainKey := startOf (ratchetChain root d2) }
    localRegistrationId := some regB
    remoteRegistrationId := some regA
    aliceBaseKey := some (5 :: C.genPub (C.genPriv baseSeed)) }

/-- Sending or reading in the session at address `a`. -/
def SessionCall (a : Address) : Call → Prop
  | .encrypt x _ => x = a
  | .decryptMsg x .. => x = a
  | _ => False

/-- Stores that hold this session at address `a` and nothing else of it; everything else is as in `w`. -/
def withSession (w : World) (a : Address) (s : SessionS) : World :=
  w.apply (.session a { sessionState := s, previousStates := [], fresh := false })

/-- The session message under these keys and this header. -/
def writtenMessage (macKey : Bytes) (eph sender receiver : ECPub) (counter previous : Nat) (ct : Bytes) : WhisperMessage :=
  let body := sessionMessage eph counter previous ct
  { serialized := body ++ (C.hmac macKey ((5 :: sender) ++ (5 :: receiver) ++ body)).take 8
    senderRatchetKey := eph, messageVersion := 3, counter := counter, previousCounter := previous, ciphertext := ct }

end Axolotl.Spec
