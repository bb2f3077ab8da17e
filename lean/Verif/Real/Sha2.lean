import Verif.Model.Basic

/-!
# SHA-256, SHA-512 and HMAC-SHA256 (FIPS 180-4, RFC 2104)

The hash functions behind `hmac`/`hashlib` and inside `axolotl_curve25519`.  They are not in the repository; this is a reference
implementation to evaluate the model on the test vectors of the repository, and to show that the laws assumed of the primitives
hold of the actual ones.  Messages, blocks and chaining values are natural numbers, which the kernel computes with directly.
-/

namespace Axolotl.Real

/-- `k n`, with `n` evaluated before the call when the kernel computes. -/
def force {α : Type} (n : Nat) (k : Nat → α) : α := Nat.rec (k 0) (fun m _ => k (Nat.succ m)) n

@[simp] theorem force_eq {α : Type} (n : Nat) (k : Nat → α) : force n k = k n := by cases n <;> rfl

/-- The number written as the bytes, highest first, appended to `acc`. -/
def beNat : Bytes → Nat → Nat
  | [], acc => acc
  | b :: bs, acc => force (acc * 256 + b.toNat) (beNat bs)

/-- `n` bytes of the number, highest first. -/
def beBytes : Nat → Nat → Bytes
  | 0, _ => []
  | n + 1, x => UInt8.ofNat (x >>> (8 * n)) :: beBytes n x

@[simp] theorem beBytes_length (n x : Nat) : (beBytes n x).length = n := by
  induction n with
  | zero => rfl
  | succ n ih => simp [beBytes, ih]

/-- What distinguishes the two hash functions: word size in bits, the rotations of the four functions, the constants of the rounds
and the initial value (eight words, as one number). -/
structure Sha2 where
  w : Nat
  (S0a S0b S0c S1a S1b S1c s0a s0b s0c s1a s1b s1c : Nat)
  K : List Nat
  H : Nat

namespace Sha2

/-- rotation to the right -/
def rotr (p : Sha2) (x n : Nat) : Nat := (x >>> n) ||| ((x <<< (p.w - n)) % 2 ^ p.w)

/-- word `i` (counted from the lowest) of a number -/
def word (p : Sha2) (x i : Nat) : Nat := (x >>> (p.w * i)) % 2 ^ p.w

/-- FIPS 180-4, 6.2.2 step 1: the window of 16 words moves on by one. -/
def nextW (p : Sha2) (W : Nat) : Nat :=
  force (p.word W 15) fun w0 => force (p.word W 14) fun w1 => force (p.word W 6) fun w9 => force (p.word W 1) fun w14 =>
  force (p.rotr w1 p.s0a ^^^ p.rotr w1 p.s0b ^^^ (w1 >>> p.s0c)) fun s0 =>
  force (p.rotr w14 p.s1a ^^^ p.rotr w14 p.s1b ^^^ (w14 >>> p.s1c)) fun s1 =>
  (W <<< p.w) % 2 ^ (16 * p.w) + (s1 + w9 + s0 + w0) % 2 ^ p.w

/-- FIPS 180-4, 6.2.2 step 3: one round.  The eight variables are one number, `a` highest. -/
def nextS (p : Sha2) (S W k : Nat) : Nat :=
  force (p.word S 7) fun a => force (p.word S 6) fun b => force (p.word S 5) fun c => force (p.word S 4) fun d =>
  force (p.word S 3) fun e => force (p.word S 2) fun f => force (p.word S 1) fun g => force (p.word S 0) fun h =>
  force (p.rotr e p.S1a ^^^ p.rotr e p.S1b ^^^ p.rotr e p.S1c) fun S1 =>
  force ((e &&& f) ^^^ ((2 ^ p.w - 1 - e) &&& g)) fun ch =>
  force (h + S1 + ch + k + p.word W 15) fun t1 =>
  force (p.rotr a p.S0a ^^^ p.rotr a p.S0b ^^^ p.rotr a p.S0c) fun S0 =>
  force ((a &&& b) ^^^ (a &&& c) ^^^ (b &&& c)) fun maj =>
  ((((((((t1 + S0 + maj) % 2 ^ p.w) <<< p.w ||| a) <<< p.w ||| b) <<< p.w ||| c) <<< p.w |||
    (d + t1) % 2 ^ p.w) <<< p.w ||| e) <<< p.w ||| f) <<< p.w ||| g

def rounds (p : Sha2) : List Nat → Nat → Nat → Nat
  | [], S, _ => S
  | k :: ks, S, W => force (p.nextS S W k) fun S' => force (p.nextW W) fun W' => rounds p ks S' W'

/-- word by word sum of two eight-word numbers -/
def addWords (p : Sha2) (x y : Nat) : Nat → Nat
  | 0 => 0
  | n + 1 => force (addWords p x y n) fun r => r + ((p.word x n + p.word y n) % 2 ^ p.w) <<< (p.w * n)

/-- FIPS 180-4, 6.2.2: one block. -/
def compress (p : Sha2) (H block : Nat) : Nat := force (p.rounds p.K H block) fun S => p.addWords H S 8

/-- The last `n` blocks of the padded message. -/
def blocks (p : Sha2) (M : Nat) : Nat → Nat → Nat
  | 0, H => H
  | n + 1, H => force ((M >>> (16 * p.w * n)) % 2 ^ (16 * p.w)) fun B => force (p.compress H B) fun H' => blocks p M n H'

/-- The hash of a message of `len` bytes given as a number (FIPS 180-4, 5.1 and 6.2): a one bit, zeros, and the length in bits as a
number of two words complete the last block. -/
def hash (p : Sha2) (M len : Nat) : Nat :=
  force ((len + 1 + p.w / 4 + 2 * p.w - 1) / (2 * p.w)) fun n =>
  force (((M * 256 + 128) <<< (8 * (2 * p.w * n - len - 1))) + 8 * len) fun padded =>
  p.blocks padded n p.H

end Sha2

/-- FIPS 180-4, 4.1.2, 4.2.2, 5.3.3 -/
def sha256 : Sha2 where
  w := 32
  S0a := 2
  S0b := 13
  S0c := 22
  S1a := 6
  S1b := 11
  S1c := 25
  s0a := 7
  s0b := 18
  s0c := 3
  s1a := 17
  s1b := 19
  s1c := 10
  K := [
    0x428a2f98, 0x71374491, 0xb5c0fbcf, 0xe9b5dba5, 0x3956c25b, 0x59f111f1, 0x923f82a4, 0xab1c5ed5,
    0xd807aa98, 0x12835b01, 0x243185be, 0x550c7dc3, 0x72be5d74, 0x80deb1fe, 0x9bdc06a7, 0xc19bf174,
    0xe49b69c1, 0xefbe4786, 0x0fc19dc6, 0x240ca1cc, 0x2de92c6f, 0x4a7484aa, 0x5cb0a9dc, 0x76f988da,
    0x983e5152, 0xa831c66d, 0xb00327c8, 0xbf597fc7, 0xc6e00bf3, 0xd5a79147, 0x06ca6351, 0x14292967,
    0x27b70a85, 0x2e1b2138, 0x4d2c6dfc, 0x53380d13, 0x650a7354, 0x766a0abb, 0x81c2c92e, 0x92722c85,
    0xa2bfe8a1, 0xa81a664b, 0xc24b8b70, 0xc76c51a3, 0xd192e819, 0xd6990624, 0xf40e3585, 0x106aa070,
    0x19a4c116, 0x1e376c08, 0x2748774c, 0x34b0bcb5, 0x391c0cb3, 0x4ed8aa4a, 0x5b9cca4f, 0x682e6ff3,
    0x748f82ee, 0x78a5636f, 0x84c87814, 0x8cc70208, 0x90befffa, 0xa4506ceb, 0xbef9a3f7, 0xc67178f2]
  H := 0x6a09e667bb67ae853c6ef372a54ff53a510e527f9b05688c1f83d9ab5be0cd19

/-- FIPS 180-4, 4.1.3, 4.2.3, 5.3.5 -/
def sha512 : Sha2 where
  w := 64
  S0a := 28
  S0b := 34
  S0c := 39
  S1a := 14
  S1b := 18
  S1c := 41
  s0a := 1
  s0b := 8
  s0c := 7
  s1a := 19
  s1b := 61
  s1c := 6
  K := [
    0x428a2f98d728ae22, 0x7137449123ef65cd, 0xb5c0fbcfec4d3b2f, 0xe9b5dba58189dbbc, 0x3956c25bf348b538,
    0x59f111f1b605d019, 0x923f82a4af194f9b, 0xab1c5ed5da6d8118, 0xd807aa98a3030242, 0x12835b0145706fbe,
    0x243185be4ee4b28c, 0x550c7dc3d5ffb4e2, 0x72be5d74f27b896f, 0x80deb1fe3b1696b1, 0x9bdc06a725c71235,
    0xc19bf174cf692694, 0xe49b69c19ef14ad2, 0xefbe4786384f25e3, 0x0fc19dc68b8cd5b5, 0x240ca1cc77ac9c65,
    0x2de92c6f592b0275, 0x4a7484aa6ea6e483, 0x5cb0a9dcbd41fbd4, 0x76f988da831153b5, 0x983e5152ee66dfab,
    0xa831c66d2db43210, 0xb00327c898fb213f, 0xbf597fc7beef0ee4, 0xc6e00bf33da88fc2, 0xd5a79147930aa725,
    0x06ca6351e003826f, 0x142929670a0e6e70, 0x27b70a8546d22ffc, 0x2e1b21385c26c926, 0x4d2c6dfc5ac42aed,
    0x53380d139d95b3df, 0x650a73548baf63de, 0x766a0abb3c77b2a8, 0x81c2c92e47edaee6, 0x92722c851482353b,
    0xa2bfe8a14cf10364, 0xa81a664bbc423001, 0xc24b8b70d0f89791, 0xc76c51a30654be30, 0xd192e819d6ef5218,
    0xd69906245565a910, 0xf40e35855771202a, 0x106aa07032bbd1b8, 0x19a4c116b8d2d0c8, 0x1e376c085141ab53,
    0x2748774cdf8eeb99, 0x34b0bcb5e19b48a8, 0x391c0cb3c5c95a63, 0x4ed8aa4ae3418acb, 0x5b9cca4f7763e373,
    0x682e6ff3d6b2b8a3, 0x748f82ee5defb2fc, 0x78a5636f43172f60, 0x84c87814a1f0ab72, 0x8cc702081a6439ec,
    0x90befffa23631e28, 0xa4506cebde82bde9, 0xbef9a3f7b2c67915, 0xc67178f2e372532b, 0xca273eceea26619c,
    0xd186b8c721c0c207, 0xeada7dd6cde0eb1e, 0xf57d4f7fee6ed178, 0x06f067aa72176fba, 0x0a637dc5a2c898a6,
    0x113f9804bef90dae, 0x1b710b35131c471b, 0x28db77f523047d84, 0x32caab7b40c72493, 0x3c9ebe0a15c9bebc,
    0x431d67c49c100d4c, 0x4cc5d4becb3e42b6, 0x597f299cfc657e2a, 0x5fcb6fab3ad6faec, 0x6c44198c4a475817]
  H := 0x6a09e667f3bcc908bb67ae8584caa73b3c6ef372fe94f82ba54ff53a5f1d36f1510e527fade682d19b05688c2b3e6c1f1f83d9abfb41bd6b5be0cd19137e2179

/-- `hashlib.sha256(m).digest()` -/
def sha256Bytes (m : Bytes) : Bytes := force (sha256.hash (beNat m 0) m.length) fun h => beBytes 32 h

/-- SHA-512 of a byte string -/
def sha512Bytes (m : Bytes) : Bytes := force (sha512.hash (beNat m 0) m.length) fun h => beBytes 64 h

/-- RFC 2104: a key of more than 64 bytes is hashed; the key is filled up with zeros to 64 bytes. -/
def hmacKey (k : Bytes) : Nat :=
  force k.length fun n =>
    if n ≤ 64 then beNat k 0 <<< (8 * (64 - n)) else sha256.hash (beNat k 0) n <<< 256

/-- the byte `b` 64 times -/
def pad64 (b : Nat) : Nat := b * ((2 ^ 512 - 1) / 255)

/-- RFC 2104 with SHA-256 -/
def hmacSha256 (k m : Bytes) : Bytes :=
  force (hmacKey k) fun key =>
  force m.length fun n =>
  force (sha256.hash (beNat m (key ^^^ pad64 0x36)) (64 + n)) fun inner =>
  force (sha256.hash ((key ^^^ pad64 0x5c) <<< 256 + inner) 96) fun outer =>
  beBytes 32 outer

theorem hmacSha256_length (k m : Bytes) : (hmacSha256 k m).length = 32 := by
  unfold hmacSha256
  simp only [force_eq, beBytes_length]

end Axolotl.Real
