import Verif.Spec.Format

/-!
# How long messages are

Written from the published formats, in numbers only.
-/

namespace Axolotl.Spec

/-- Bytes a number takes: one for every seven bits. -/
def numberSize (n : Nat) : Nat := Nat.log2 n / 7 + 1

/-- A number after its tag. -/
def numberFieldSize (n : Nat) : Nat := 1 + numberSize n

/-- `n` bytes after their tag and their length. -/
def bytesFieldSize (n : Nat) : Nat := 1 + numberSize n + n

/-- A public key, with its type byte, in a field. -/
def keyFieldSize : Nat := 35

/-- An encryption of `n` bytes: whole blocks of sixteen, one more than fit. -/
def cipherSize (n : Nat) : Nat := 16 * (n / 16 + 1)

/-- A session message with `n` bytes of plaintext: version, ratchet key, two counters, body, MAC. -/
def sessionSize (counter previous n : Nat) : Nat :=
  1 + keyFieldSize + numberFieldSize counter + numberFieldSize previous + bytesFieldSize (cipherSize n) + 8

/-- A prekey message around a session message of `inner` bytes. -/
def preKeySize (preKeyId : Option Nat) (registration signedId inner : Nat) : Nat :=
  1 + (match preKeyId with | none => 0 | some i => numberFieldSize i) + keyFieldSize + keyFieldSize + bytesFieldSize inner +
    numberFieldSize registration + numberFieldSize signedId

/-- A group message with `n` bytes of plaintext: version, key id, iteration, body, signature. -/
def groupSize (keyId iteration n : Nat) : Nat :=
  1 + numberFieldSize keyId + numberFieldSize iteration + bytesFieldSize (cipherSize n) + 64

/-- A sender key distribution message: version, key id, iteration, chain key, signing key. -/
def distributionSize (keyId iteration : Nat) : Nat :=
  1 + numberFieldSize keyId + numberFieldSize iteration + bytesFieldSize 32 + keyFieldSize

/-- A key exchange message: version, sequence number with flags, three keys, signature. -/
def exchangeSize (sequence flags : Nat) : Nat :=
  1 + numberFieldSize (sequence * 32 + flags) + 3 * keyFieldSize + bytesFieldSize 64

end Axolotl.Spec
