import Verif.Spec.History
import Verif.Toy

/-!
# A concrete conversation

Two parties over the toy primitives, used to show that hypotheses of the theorems are met and to exhibit
counterexamples.  Everything here is evaluated by the kernel.
-/

namespace Axolotl.Example
attribute [local instance] toy

/-- A 32-byte key. -/
def key (n : UInt8) : Bytes := List.replicate 32 n

def pair (n : UInt8) : KeyPair := { pub := key n, priv := key n }

/-- `PreKeyRecord`s and `SignedPreKeyRecord`s of Bob. -/
def bobPreKey : PreKeyRecord := match PreKeyRecord.mk' 31 (pair 31) with | .ok r => r | .error _ => {}
def bobSignedPreKey : SignedPreKeyRecord :=
  match SignedPreKeyRecord.mk' 22 1000 (pair 22) (Toy.tag (key 2) (5 :: key 22)) with
  | .ok r => r
  | .error _ => {}

def alice0 : World :=
  { identityKeyPair := pair 1, registrationId := 11, policy := tofu, identities := fun _ => none,
    sessions := fun _ => none, preKeys := fun _ => none, signedPreKeys := fun _ => none }

def bob0 : World :=
  { identityKeyPair := pair 2, registrationId := 12, policy := tofu, identities := fun _ => none,
    sessions := fun _ => none, preKeys := fun i => if i = 31 then some bobPreKey else none,
    signedPreKeys := fun i => if i = 22 then some bobSignedPreKey else none }

/-- What Bob published. -/
def bobBundle : PreKeyBundle :=
  { registrationId := 12, deviceId := 1, preKeyId := 31, preKey := some (key 31), signedPreKeyId := 22,
    signedPreKey := some (key 22), signedPreKeySignature := Toy.tag (key 2) (5 :: key 22), identityKey := key 2 }

abbrev bobAddr : Address := ("bob", 1)
abbrev aliceAddr : Address := ("alice", 1)

/-- Alice after processing the bundle. -/
def alice1 : World := (SessionBuilder.processPreKeyBundle alice0 bobAddr bobBundle (key 41) (key 42)).final alice0

/-- Alice's first message. -/
def first : Outcome Ciphertext := SessionCipher.encrypt alice1 bobAddr [104, 105]
def alice2 : World := first.final alice1

def noMessage : WhisperMessage :=
  { serialized := [], senderRatchetKey := [], messageVersion := 0, counter := 0, previousCounter := 0, ciphertext := [] }

def firstPk : PreKeyWhisperMessage :=
  match first.result with
  | .ok (.preKey m) => m
  | _ => { serialized := [], version := 0, registrationId := 0, preKeyId := none, signedPreKeyId := 0,
           baseKey := [], identityKey := [], message := noMessage }

/-- Bob after receiving it. -/
def bobGot : Outcome Bytes := SessionCipher.decryptPkmsg bob0 aliceAddr firstPk (key 51) (fun _ => key 52)
def bob1 : World := bobGot.final bob0

/-- Bob's reply. -/
def reply : Outcome Ciphertext := SessionCipher.encrypt bob1 aliceAddr [121, 111]
def bob2 : World := reply.final bob1
def replyMsg : WhisperMessage := match reply.result with | .ok c => c.inner | .error _ => noMessage

def aliceGot : Outcome Bytes := SessionCipher.decryptMsg alice2 bobAddr replyMsg (key 43) (fun _ => key 44)
def alice3 : World := aliceGot.final alice2

/-- A forged prekey message: Alice's first one with the last byte of the MAC changed. -/
def forgedInner : WhisperMessage :=
  { firstPk.message with serialized := firstPk.message.serialized.dropLast ++ [0, 1] }
def forgedPk : PreKeyWhisperMessage := { firstPk with message := forgedInner }

/-- A key exchange: Alice asks, Bob answers, Alice processes the answer. -/
def noKe : KeyExchangeMessage :=
  { serialized := [], version := 0, supportedVersion := 0, sequence := 0, flags := 0, baseKey := [],
    baseKeySignature := [], ratchetKey := [], identityKey := [] }
def keAsk : Outcome KeyExchangeMessage :=
  SessionBuilder.processInitKeyExchangeMessage alice0 bobAddr 77 (key 61) (key 62) (key 63)
def keAlice1 : World := keAsk.final alice0
def keAskMsg : KeyExchangeMessage := match keAsk.result with | .ok m => m | .error _ => noKe
def keRand : SessionBuilder.InitiateRand := ⟨key 71, key 72, key 73, key 74⟩
def keAnswer : Outcome (Option KeyExchangeMessage) :=
  SessionBuilder.processKeyExchangeMessage bob0 aliceAddr keAskMsg keRand
def keBob1 : World := keAnswer.final bob0
def keAnswerMsg : KeyExchangeMessage := match keAnswer.result with | .ok (some m) => m | _ => noKe
def keDone : Outcome (Option KeyExchangeMessage) :=
  SessionBuilder.processKeyExchangeMessage keAlice1 bobAddr keAnswerMsg ⟨key 81, key 82, key 83, key 84⟩
def keAlice2 : World := keDone.final keAlice1

theorem keAsk_ok : keAsk.result.toOption.isSome = true := by decide +kernel
theorem keAnswer_ok : (keAnswer.result.toOption.bind id).isSome = true := by decide +kernel
theorem keDone_ok : keDone.result = .ok none ∧ keDone.writes.length = 2 := by decide +kernel

theorem first_ok : first.result.toOption.isSome = true := by decide +kernel
theorem bobGot_ok : bobGot.result = .ok [104, 105] := by decide +kernel
theorem aliceGot_ok : aliceGot.result = .ok [121, 111] := by decide +kernel
theorem forged_rejected : (SessionCipher.decryptPkmsg bob0 aliceAddr forgedPk (key 51) (fun _ => key 52)).result
    = .error .invalidMessage := by decide +kernel

end Axolotl.Example
