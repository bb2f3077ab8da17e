import Verif.Model.SessionCipher

/-!
# Public helpers that the protocol code itself does not need

axolotl/util/hexutil.py, axolotl/util/byteutil.py (`combine`), axolotl/ecc/curve.py (`decodePoint` with an offset),
axolotl/ecc/djbec.py (`__cmp__`), axolotl/identitykey.py, axolotl/util/keyhelper.py, `getType` of the group messages.
-/

namespace Axolotl

namespace HexUtil

/-- The value of a hexadecimal digit as `binascii` reads it: by character ranges, either case. -/
def digitValue (c : Char) : Option Nat :=
  if 48 ≤ c.toNat ∧ c.toNat ≤ 57 then some (c.toNat - 48)
  else if 97 ≤ c.toNat ∧ c.toNat ≤ 102 then some (c.toNat - 87)
  else if 65 ≤ c.toNat ∧ c.toNat ≤ 70 then some (c.toNat - 55)
  else none

/-- axolotl/util/hexutil.py:5,9-12 `HexUtil.decodeHex` of a `str`, given as its characters: two digits per byte.  An odd number
of characters and anything but a digit raise `binascii.Error`, which is a `ValueError`. -/
def decodeHex : List Char → Res Bytes
  | [] => .ok []
  | [_] => .error .valueError
  | a :: b :: rest => do
    let t ← decodeHex rest
    match digitValue a, digitValue b with
    | some x, some y => .ok (UInt8.ofNat (x * 16 + y) :: t)
    | _, _ => .error .valueError

end HexUtil

namespace ByteUtil

/-- An argument of `ByteUtil.combine`: `bytes` or `bytearray`, a list of ints, a `str`, or an int. -/
inductive Piece where
  | bytes (b : Bytes)
  | list (l : List Int)
  | str (s : List Char)
  | int (n : Int)

/-- `bytearray.append`: an int that is no byte raises `ValueError`. -/
def appendByte (baos : Bytes) (n : Int) : Res Bytes :=
  if 0 ≤ n ∧ n < 256 then .ok (baos ++ [UInt8.ofNat n.toNat]) else .error .valueError

/-- `bytearray.extend` with a list of ints -/
def extendInts (baos : Bytes) : List Int → Res Bytes
  | [] => .ok baos
  | n :: rest => do
    let baos ← appendByte baos n
    extendInts baos rest

/-- The loop of `combine`.  `bytearray.extend` with a `str` raises `TypeError` unless the `str` is empty. -/
def combineFrom (baos : Bytes) : List Piece → Res Bytes
  | [] => .ok baos
  | .bytes b :: rest => combineFrom (baos ++ b) rest
  | .list l :: rest => do
    let baos ← extendInts baos l
    combineFrom baos rest
  | .str s :: rest => if s = [] then combineFrom baos rest else .error .typeError
  | .int n :: rest => do
    let baos ← appendByte baos n
    combineFrom baos rest

/-- axolotl/util/byteutil.py:5-14 `ByteUtil.combine(*args)` -/
def combine (args : List Piece) : Res Bytes := combineFrom [] args

end ByteUtil

/-- Python: `inp[i]` for an int `i`, negative ones counting from the end; `none` is `IndexError`. -/
def pyGet {α : Type} (inp : List α) (i : Int) : Option α :=
  if 0 ≤ i then inp[i.toNat]?
  else if 0 ≤ i + (inp.length : Int) then inp[(i + (inp.length : Int)).toNat]?
  else none

namespace Curve

/-- axolotl/ecc/curve.py:32-45 `Curve.decodePoint(_bytes, offset)`.  The type byte is looked for at the beginning of the array
first and then at the offset. -/
def decodePointAt (bs : Bytes) (offset : Int) : Res ECPub :=
  match pyGet bs 0 with
  | none => .error .indexError
  | some t =>
    if t = DJB_TYPE then
      match pyGet bs offset with
      | none => .error .indexError
      | some t => if t ≠ DJB_TYPE then .error .invalidKey
        else .ok (pySlice (pySlice bs (offset + 1) bs.length) 0 32)
    else .error .invalidKey

/-- axolotl/ecc/djbec.py:37-46 `DjbECPublicKey.__cmp__` -/
def pubCmp (a b : ECPub) : Res Int := do
  let myVal ← unpackI 8 a
  let otherVal ← unpackI 8 b
  if tupleLt myVal otherVal then .ok (-1)
  else if myVal = otherVal then .ok 0
  else .ok 1

end Curve

namespace IdentityKey

/-- axolotl/identitykey.py:7-11 `IdentityKey(ecPubKeyOrBytes, offset)` with an offset -/
def ofBytes (bs : Bytes) (offset : Int) : Res ECPub := Curve.decodePointAt bs offset

end IdentityKey

/-- axolotl/protocol/senderkeymessage.py:103-104 -/
def SenderKeyMessage.getType (_ : SenderKeyMessage) : Nat := CiphertextMessage.SENDERKEY_TYPE

/-- axolotl/protocol/senderkeydistributionmessage.py:71-72 -/
def SenderKeyDistributionMessage.getType (_ : SenderKeyDistributionMessage) : Nat :=
  CiphertextMessage.SENDERKEY_DISTRIBUTION_TYPE

namespace KeyHelper
variable [Crypto]

/-- axolotl/util/keyhelper.py:29-31 -/
def leftoverLiteral : List Char :=
  "0a21056e8936e8367f768a7bba008ade7cf58407bdc7a6aae293e2c".toList ++
  "b7c06668dcd7d5e12205011524f0c15467100dd603e0d6020f4d293".toList ++
  "edfbcd82129b14a88791ac81365c".toList

/-- axolotl/util/keyhelper.py:20-34 `KeyHelper.generateIdentityKeyPair()`; `seed` is what `os.urandom(32)` returned.  A literal is
decoded on the way (`binascii.unhexlify`, the function behind the codec of `HexUtil`) and the result is not used. -/
def generateIdentityKeyPair (seed : Bytes) : Res KeyPair := do
  let keyPair := Curve.generateKeyPair seed
  let _serialized ← HexUtil.decodeHex leftoverLiteral
  .ok { pub := keyPair.pub, priv := keyPair.priv }

end KeyHelper
end Axolotl
