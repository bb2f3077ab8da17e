import Verif.Model.Kdf
import Verif.Model.Protos

/-!
# Keys: axolotl/ecc/*.py, axolotl/identitykey.py, axolotl/identitykeypair.py,
axolotl/state/prekeyrecord.py, axolotl/state/signedprekeyrecord.py, axolotl/state/prekeybundle.py

`DjbECPublicKey`, `IdentityKey` and `DjbECPrivateKey` are wrappers around the raw key bytes; equality
of the wrappers is equality of the bytes (axolotl/ecc/djbec.py:28-29,64-65, axolotl/identitykey.py:22-23).
They are modelled by the raw bytes.  All keys have type `DJB_TYPE`, so the type checks in
axolotl/ecc/curve.py:58-64,74-78,86-91 always take the first branch.
-/

namespace Axolotl
variable [Crypto]

/-- raw bytes of a `DjbECPublicKey` (axolotl/ecc/djbec.py:9-46) or of the key in an `IdentityKey` -/
abbrev ECPub := Bytes
/-- raw bytes of a `DjbECPrivateKey` (axolotl/ecc/djbec.py:49-65) -/
abbrev ECPriv := Bytes

/-- axolotl/ecc/eckeypair.py:4-17; also axolotl/identitykeypair.py:8-23 -/
structure KeyPair where
  pub : ECPub
  priv : ECPriv
  deriving DecidableEq, Repr

namespace Curve

/-- axolotl/ecc/curve.py:12 -/
def DJB_TYPE : UInt8 := 5

/-- axolotl/ecc/djbec.py:14-18 `DjbECPublicKey.serialize` (also axolotl/identitykey.py:16-17) -/
def serializePoint (k : ECPub) : Bytes := DJB_TYPE :: k

/-- axolotl/ecc/curve.py:32-45 `Curve.decodePoint(bytes, 0)`.  `_bytes[0]` on an empty array raises
`IndexError`.  Every caller passes offset 0. -/
def decodePoint (bs : Bytes) : Res ECPub :=
  match bs with
  | [] => .error .indexError
  | t :: rest => if t = DJB_TYPE then .ok (rest.take 32) else .error .invalidKey

/-- axolotl/ecc/curve.py:47-50 `Curve.decodePrivatePoint` -/
def decodePrivatePoint (bs : Bytes) : ECPriv := bs

/-- axolotl/ecc/curve.py:15-30 `Curve.generateKeyPair()`; `seed` is what `os.urandom(32)` returned. -/
def generateKeyPair (seed : Bytes) : KeyPair :=
  let privateKey := Crypto.genPriv seed
  { pub := Crypto.genPub privateKey, priv := privateKey }

/-- axolotl/ecc/curve.py:52-64 `Curve.calculateAgreement(publicKey, privateKey)` -/
def calculateAgreement (publicKey : ECPub) (privateKey : ECPriv) : Res Bytes :=
  match Crypto.dh privateKey publicKey with
  | some s => .ok s
  | none => .error .valueError

/-- axolotl/ecc/curve.py:66-78 -/
def verifySignature (signingKey : ECPub) (message signature : Bytes) : Res Bool :=
  match Crypto.verifySig signingKey message signature with
  | some b => .ok b
  | none => .error .valueError

/-- axolotl/ecc/curve.py:80-91; `rand` is what `os.urandom(64)` returned. -/
def calculateSignature (rand : Bytes) (signingKey : ECPriv) (message : Bytes) : Res Bytes :=
  match Crypto.calcSig rand signingKey message with
  | some s => .ok s
  | none => .error .valueError

/-- One big-endian signed 32-bit integer. -/
def beI32 (a b c d : UInt8) : Int :=
  let n : Nat := a.toNat * 2 ^ 24 + b.toNat * 2 ^ 16 + c.toNat * 2 ^ 8 + d.toNat
  if n < 2 ^ 31 then (n : Int) else (n : Int) - 2 ^ 32

/-- `struct.unpack(">ni", bs)`: `n` big-endian signed 32-bit integers; a wrong length raises
`struct.error`. -/
def unpackI : Nat → Bytes → Res (List Int)
  | 0, [] => .ok []
  | n + 1, a :: b :: c :: d :: rest => do
    let t ← unpackI n rest
    .ok (beI32 a b c d :: t)
  | _, _ => .error .structError

/-- Python's `<` on tuples of ints of the same length: lexicographic. -/
def tupleLt : List Int → List Int → Bool
  | [], [] => false
  | [], _ :: _ => true
  | _ :: _, [] => false
  | a :: as, b :: bs => if a < b then true else if a = b then tupleLt as bs else false

/-- axolotl/ecc/djbec.py:31-35 `DjbECPublicKey.__lt__` -/
def pubLt (a b : ECPub) : Res Bool := do
  let myVal ← unpackI 8 a
  let otherVal ← unpackI 8 b
  .ok (tupleLt myVal otherVal)

end Curve

namespace IdentityKeyPair

/-- axolotl/identitykeypair.py:25-29 -/
def serialize (k : KeyPair) : Bytes :=
  serializeWith IdentityKeyPairS.toFields
    { publicKey := some (Curve.serializePoint k.pub), privateKey := some k.priv }

/-- axolotl/identitykeypair.py:9-17 with `serialized` given.  An empty `serialized` is falsy and takes
the other branch, which stores `None` keys; that call is modelled as a `TypeError`
(simplification: Python defers the failure to the first use of the keys). -/
def ofSerialized (bs : Bytes) : Res KeyPair :=
  if bs = [] then .error .typeError
  else do
    let s ← parseWith IdentityKeyPairS.ofFields bs
    let pub ← Curve.decodePoint (s.publicKey.getD [])
    .ok { pub := pub, priv := Curve.decodePrivatePoint (s.privateKey.getD []) }

end IdentityKeyPair

/-- axolotl/state/prekeyrecord.py:8-27; the object is its protobuf structure. -/
abbrev PreKeyRecord := PreKeyRecordS

namespace PreKeyRecord

/-- axolotl/state/prekeyrecord.py:13-16 -/
def mk' (id : Int) (k : KeyPair) : Res PreKeyRecord := do
  let id ← chkU32 id
  .ok { id := some id, publicKey := some (Curve.serializePoint k.pub), privateKey := some k.priv }

/-- axolotl/state/prekeyrecord.py:18-19 -/
def getId (r : PreKeyRecord) : Nat := r.id.getD 0

/-- axolotl/state/prekeyrecord.py:21-24 -/
def getKeyPair (r : PreKeyRecord) : Res KeyPair := do
  let pub ← Curve.decodePoint (r.publicKey.getD [])
  .ok { pub := pub, priv := Curve.decodePrivatePoint (r.privateKey.getD []) }

/-- axolotl/state/prekeyrecord.py:26-27 -/
def serialize (r : PreKeyRecord) : Bytes := serializeWith PreKeyRecordS.toFields r

/-- axolotl/state/prekeyrecord.py:10-12; an empty string takes the other branch (`TypeError` on
assigning `None`). -/
def ofSerialized (bs : Bytes) : Res PreKeyRecord :=
  if bs = [] then .error .typeError else parseWith PreKeyRecordS.ofFields bs

end PreKeyRecord

/-- axolotl/state/signedprekeyrecord.py:8-36; the object is its protobuf structure. -/
abbrev SignedPreKeyRecord := SignedPreKeyRecordS

namespace SignedPreKeyRecord

/-- axolotl/state/signedprekeyrecord.py:13-18.  `timestamp` is a `fixed64`. -/
def mk' (id : Int) (timestamp : Nat) (k : KeyPair) (signature : Bytes) : Res SignedPreKeyRecord := do
  let id ← chkU32 id
  if timestamp < 2 ^ 64 then
    .ok { id := some id, publicKey := some (Curve.serializePoint k.pub), privateKey := some k.priv,
          signature := some signature, timestamp := some timestamp }
  else .error .valueError

/-- axolotl/state/signedprekeyrecord.py:20-24,32-33 -/
def getId (r : SignedPreKeyRecord) : Nat := r.id.getD 0
def getTimestamp (r : SignedPreKeyRecord) : Nat := r.timestamp.getD 0
def getSignature (r : SignedPreKeyRecord) : Bytes := r.signature.getD []

/-- axolotl/state/signedprekeyrecord.py:26-30 -/
def getKeyPair (r : SignedPreKeyRecord) : Res KeyPair := do
  let pub ← Curve.decodePoint (r.publicKey.getD [])
  .ok { pub := pub, priv := Curve.decodePrivatePoint (r.privateKey.getD []) }

/-- axolotl/state/signedprekeyrecord.py:35-36 -/
def serialize (r : SignedPreKeyRecord) : Bytes := serializeWith SignedPreKeyRecordS.toFields r

/-- axolotl/state/signedprekeyrecord.py:10-12 -/
def ofSerialized (bs : Bytes) : Res SignedPreKeyRecord :=
  if bs = [] then .error .typeError else parseWith SignedPreKeyRecordS.ofFields bs

end SignedPreKeyRecord

/-- axolotl/state/prekeybundle.py:4-39.  `preKey` is `None` or the one-time prekey; `preKeyId` is only
read when the key is present (axolotl/sessionbuilder.py:108). -/
structure PreKeyBundle where
  registrationId : Int
  deviceId : Nat := 1
  preKeyId : Int
  preKey : Option ECPub
  signedPreKeyId : Int
  signedPreKey : Option ECPub
  signedPreKeySignature : Bytes
  identityKey : ECPub
  deriving DecidableEq, Repr

namespace KeyHelper

/-- axolotl/util/keyhelper.py:74: the id of the `i`-th generated prekey (Python `%` with a positive
modulus is `Int` euclidean remainder). -/
def preKeyIdAt (start : Int) (i : Nat) : Int :=
  ((start - 1 + (i : Int)) % ((Medium.MAX_VALUE : Int) - 1)) + 1

/-- axolotl/util/keyhelper.py:57-77; `seeds i` is the randomness of the `i`-th key. -/
def generatePreKeys (start : Int) (count : Nat) (seeds : Nat → Bytes) : Res (List PreKeyRecord) :=
  (List.range count).mapM fun i => PreKeyRecord.mk' (preKeyIdAt start i) (Curve.generateKeyPair (seeds i))

/-- axolotl/util/keyhelper.py:37-51; `rnd` is what `SystemRandom().randrange(max)` returned
(so `rnd < max`). -/
def registrationIdMax (extended : Bool) : Nat := if extended then 2147483646 else 16380
def generateRegistrationId (rnd : Nat) : Nat := rnd + 1

/-- axolotl/util/keyhelper.py:79-86; `now` is the time in milliseconds. -/
def generateSignedPreKey (identity : KeyPair) (signedPreKeyId : Int) (now : Nat) (seed rand : Bytes) :
    Res SignedPreKeyRecord := do
  let keyPair := Curve.generateKeyPair seed
  let signature ← Curve.calculateSignature rand identity.priv (Curve.serializePoint keyPair.pub)
  SignedPreKeyRecord.mk' signedPreKeyId now keyPair signature

end KeyHelper

end Axolotl
