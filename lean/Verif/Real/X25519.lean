import Verif.Real.Aes

/-!
# Curve25519: key agreement (RFC 7748) and signatures (XEdDSA)

What `axolotl_curve25519` computes: `curve25519_donna` for key pairs and agreement, and `curve25519_sign`, `curve25519_verify` for
signatures.  Field elements are natural numbers below `p`.  The points of the twisted Edwards curve are kept in the coordinates of the
Montgomery curve `v² = u³ + 486662 u² + u`, to which it is equivalent; they are converted when a point is written as bytes or read.
-/

namespace Axolotl.Real

/-- The prime of the field, `2 ^ 255 - 19`. -/
def P25519 : Nat := 57896044618658097711785492504343953926634992332820282019728792003956564819949

theorem P25519_eq : P25519 = 2 ^ 255 - 19 := by decide +kernel

/-- The order of the base point. -/
def Q25519 : Nat := 2 ^ 252 + 27742317777372353535851937790883648493

/-- the highest of 256 bits -/
def top255 : Nat := 2 ^ 255

/-- the number written as the bytes, lowest first -/
def leNat (b : Bytes) : Nat := beNat b.reverse 0

/-- `n` bytes of the number, lowest first -/
def leBytes (n x : Nat) : Bytes := (beBytes n x).reverse

@[simp] theorem leBytes_length (n x : Nat) : (leBytes n x).length = n := by simp [leBytes]

namespace Fp

def mul (a b : Nat) : Nat := Nat.mod (Nat.mul a b) P25519
def add (a b : Nat) : Nat := (a + b) % P25519
def sub (a b : Nat) : Nat := (a + (P25519 - b % P25519)) % P25519

/-- `acc ^ (2 ^ n) * a ^ (e mod 2 ^ n)` -/
def powBits (a e n : Nat) : Nat → Nat :=
  Nat.rec (fun acc => acc) (fun n powBits acc => force (mul acc acc) fun s =>
    bif Nat.testBit e n then force (mul s a) fun t => powBits t else powBits s) n

/-- `a ^ e` for exponents of less than 256 bits -/
def pow (a e : Nat) : Nat := powBits a e 256 1

/-- `a ^ (2 ^ n)` -/
def sqN (n : Nat) : Nat → Nat := Nat.rec (fun a => a) (fun _ sqN a => force (mul a a) fun s => sqN s) n

/-- `1 / a`, and 0 for 0: the power `p - 2` by the usual chain of squarings and multiplications (`fe_invert`). -/
def inv (a : Nat) : Nat :=
  force (mul a a) fun a2 => force (mul (sqN 2 a2) a) fun a9 => force (mul a9 a2) fun a11 =>
  force (mul (mul a11 a11) a9) fun b5 => force (mul (sqN 5 b5) b5) fun b10 => force (mul (sqN 10 b10) b10) fun b20 =>
  force (mul (sqN 20 b20) b20) fun b40 => force (mul (sqN 10 b40) b10) fun b50 => force (mul (sqN 50 b50) b50) fun b100 =>
  force (mul (sqN 100 b100) b100) fun b200 => force (mul (sqN 50 b200) b50) fun b250 => mul (sqN 5 b250) a11

/-- a square root of minus one -/
def sqrtM1 : Nat := 19681161376707505956807079304988542015446066515923890162744021073123829784752

/-- A square root, if there is one. -/
def sqrt (a : Nat) : Option Nat :=
  force (pow a ((P25519 + 3) / 8)) fun r =>
    if mul r r = a then some r
    else force (mul r sqrtM1) fun r => if mul r r = a then some r else none

end Fp

open Fp

namespace X25519

/-- RFC 7748, 5: one step of the ladder, for a bit that is not set. -/
def step0 (x1 x2 z2 x3 z3 : Nat) (k : Nat → Nat → Nat → Nat → Nat) : Nat :=
  force (add x2 z2) fun a => force (mul a a) fun aa => force (sub x2 z2) fun b => force (mul b b) fun bb =>
  force (sub aa bb) fun e => force (add x3 z3) fun c => force (sub x3 z3) fun d =>
  force (mul d a) fun da => force (mul c b) fun cb =>
  force (add da cb) fun s => force (sub da cb) fun t =>
  force (mul s s) fun x5 => force (mul x1 (mul t t)) fun z5 =>
  force (mul aa bb) fun x4 => force (mul e (add aa (mul 121665 e))) fun z4 =>
  k x4 z4 x5 z5

/-- RFC 7748, 5: the bits `n-1, …, 0` of the scalar; a bit that is set swaps the two points before and after the step. -/
def ladder (s x1 : Nat) : Nat → Nat → Nat → Nat → Nat → Nat
  | 0, x2, z2, _, _ => mul x2 (inv z2)
  | n + 1, x2, z2, x3, z3 =>
    if s / 2 ^ n % 2 = 1 then step0 x1 x3 z3 x2 z2 fun x4 z4 x5 z5 => ladder s x1 n x5 z5 x4 z4
    else step0 x1 x2 z2 x3 z3 fun x4 z4 x5 z5 => ladder s x1 n x4 z4 x5 z5

/-- RFC 7748, 5, `decodeScalar25519`: bits 0, 1, 2 and 255 are cleared, bit 254 is set. -/
def clamp (n : Nat) : Nat := 2 ^ 254 + n % 2 ^ 254 / 8 * 8

/-- The multiple of a coordinate, on numbers: the highest bit of the coordinate is ignored.  Unlike RFC 7748, the extension's
`curve25519_donna` takes all 256 bits of the scalar as they are: the bits are set when a private key is made.  (The public keys and the
result in axolotl/tests/ratchet/test_rootkey.py, whose private key does not have these bits set, are the values without setting them.) -/
def scalarMul (s u : Nat) : Nat := force (u % top255 % P25519) fun u => ladder s u 256 1 0 u 1

/-- `curve25519_donna(out, priv, pub)` -/
def donna (priv pub : Bytes) : Bytes := force (scalarMul (leNat priv) (leNat pub)) fun r => leBytes 32 r

/-- `axolotl_curve25519.generatePrivateKey(rand)`: 32 random bytes with the five bits set as in RFC 7748. -/
def genPriv (rand : Bytes) : Bytes := force (clamp (leNat rand)) fun r => leBytes 32 r

/-- `axolotl_curve25519.generatePublicKey(priv)` -/
def genPub (priv : Bytes) : Bytes := donna priv (leBytes 32 9)

/-- `axolotl_curve25519.calculateAgreement(priv, pub)`: the extension raises `ValueError` unless both have 32 bytes. -/
def dh (priv pub : Bytes) : Option Bytes :=
  if priv.length = 32 ∧ pub.length = 32 then some (donna priv pub) else none

end X25519

namespace XEd

/-- A point of the curve `v² = u³ + 486662 u² + u`; `none` is the neutral element. -/
abbrev Pt := Option (Nat × Nat)

/-- `k P`, with the coordinates evaluated before the call when the kernel computes. -/
def forcePt {α : Type} (P : Pt) (k : Pt → α) : α :=
  match P with
  | none => k none
  | some (x, y) => force x fun x => force y fun y => k (some (x, y))

@[simp] theorem forcePt_eq {α : Type} (P : Pt) (k : Pt → α) : forcePt P k = k P := by
  unfold forcePt
  split <;> simp

/-- The third point of the line with slope `l` through the two points, mirrored. -/
def third (l x1 y1 x2 : Nat) : Pt :=
  force (sub (sub (sub (mul l l) 486662) x1) x2) fun x3 =>
  force (sub (mul l (sub x1 x3)) y1) fun y3 => some (x3, y3)

/-- The sum of two points: the line through them, or the tangent when they are equal. -/
def addPt : Pt → Pt → Pt
  | none, Q => Q
  | P, none => P
  | some (x1, y1), some (x2, y2) =>
    if x1 = x2 then
      if y1 = y2 ∧ y1 ≠ 0 then
        force (mul (add (mul 3 (mul x1 x1)) (add (mul (2 * 486662) x1) 1)) (inv (add y1 y1))) fun l => third l x1 y1 x2
      else none
    else force (mul (sub y1 y2) (inv (sub x1 x2))) fun l => third l x1 y1 x2

def negPt : Pt → Pt
  | none => none
  | some (x, y) => some (x, sub 0 y)

/-- Double and add: `2 ^ n * acc + (s mod 2 ^ n) * P` -/
def mulBits (s : Nat) (P : Pt) : Nat → Pt → Pt
  | 0, acc => acc
  | n + 1, acc =>
    forcePt (addPt acc acc) fun D =>
    if s / 2 ^ n % 2 = 1 then forcePt (addPt D P) fun E => mulBits s P n E else mulBits s P n D

/-- a multiple of a point, for factors of at most 256 bits -/
def mulPt (s : Nat) (P : Pt) : Pt := mulBits s P 256 none

/-- The base point; its Edwards form is that of RFC 8032. -/
def base : Pt := some (9, 43114425171068552920764898935933967039370386198203806730763910166200978582548)

/-- a square root of -486664: the factor between the two forms of the curve (RFC 7748, 4.1) -/
def sqrtD : Nat := 6853475219497561581579357271197624642482790079785650197046958215289687604742

/-- The `x` coordinate of the Edwards form (RFC 7748, 4.1) -/
def edX : Pt → Nat
  | none => 0
  | some (u, v) => mul (mul sqrtD u) (inv v)

/-- The `y` coordinate of the Edwards form for the Montgomery coordinate `u` -/
def edYofU (u : Nat) : Nat := mul (sub u 1) (inv (add u 1))

def edY : Pt → Nat
  | none => 1
  | some (u, _) => edYofU u

/-- A point as a number of 256 bits: `y`, and the lowest bit of `x` on top (`ge_p3_tobytes`). -/
def encode (P : Pt) : Nat := force (edY P) fun y => force (edX P) fun x => y + x % 2 * top255

/-- The point with the given Edwards `y` and lowest bit of `x` (`ge_frombytes_negate_vartime`, without the negation); the point with
`y = 1` is the neutral element. -/
def decode (y sign : Nat) : Option Pt :=
  if y = 1 then some none else
  force (mul (add 1 y) (inv (sub 1 y))) fun u =>
    match sqrt (mul u (add (mul u (add u 486662)) 1)) with
    | none => none
    | some v => if edX (some (u, v)) % 2 = sign then some (some (u, v)) else some (negPt (some (u, v)))

/-- SHA-512 as a scalar (`crypto_hash_sha512`, `sc_reduce`): the hash is read lowest byte first. -/
def hashScalar (m : Bytes) : Nat := leNat (sha512Bytes m) % Q25519

/-- The prefix that separates the hash of the nonce from the others (`crypto_sign_modified`). -/
def noncePrefix : Bytes := 0xFE :: List.replicate 31 0xFF

/-- `curve25519_sign`: the highest bit of the signature carries the sign of the public key. -/
def sign (rand priv msg : Bytes) : Bytes :=
  force (leNat priv) fun a =>
  force (encode (mulPt a base)) fun A =>
  force (hashScalar (noncePrefix ++ priv ++ msg ++ rand)) fun r =>
  force (encode (mulPt r base)) fun R =>
  force (hashScalar (leBytes 32 R ++ leBytes 32 A ++ msg)) fun h =>
  force ((h * a + r) % Q25519 + A / top255 * top255) fun S =>
  leBytes 32 R ++ leBytes 32 S

/-- `curve25519_verify`: 0 is `true`.  Numbers of more than 253 bits are refused. -/
def verify (pub msg sig : Bytes) : Bool :=
  force (edYofU (leNat pub % top255 % P25519)) fun y =>
  force (leNat (sig.drop 32)) fun S =>
  force (S / top255) fun sgn =>
  force (S % top255) fun s =>
  if top255 ≤ 4 * s then false else
  match decode y sgn with
  | none => false
  | some A =>
    force (hashScalar (sig.take 32 ++ leBytes 32 (y + sgn * top255) ++ msg)) fun h =>
    forcePt (mulPt s base) fun sB =>
    forcePt (negPt (mulPt h A)) fun hA =>
    force (encode (addPt sB hA)) fun R => decide (leBytes 32 R = sig.take 32)

/-- `axolotl_curve25519.calculateSignature(rand, priv, msg)`: the extension raises `ValueError` unless the key has 32 bytes and there
are 64 random ones. -/
def calcSig (rand priv msg : Bytes) : Option Bytes :=
  if rand.length = 64 ∧ priv.length = 32 then some (sign rand priv msg) else none

/-- `axolotl_curve25519.verifySignature(pub, msg, sig)`: `ValueError` unless the key has 32 bytes and the signature 64. -/
def verifySig (pub msg sig : Bytes) : Option Bool :=
  if pub.length = 32 ∧ sig.length = 64 then some (verify pub msg sig) else none

end XEd

end Axolotl.Real
