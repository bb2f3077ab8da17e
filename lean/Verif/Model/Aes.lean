import Verif.Model.Crypto

/-! # `AESCipher`, axolotl/sessioncipher.py:203-223

AES-CBC with PKCS7 padding.  The block cipher is `Crypto.aesEnc`/`aesDec`; the mode of operation
and the padding (implemented by the `cryptography` package) are modelled concretely. -/

namespace Axolotl.AES
variable [Crypto]

/-- bytewise xor of two blocks -/
def xorB (a b : Bytes) : Bytes := List.zipWith (· ^^^ ·) a b

/-- `padding.PKCS7(128).padder()`: `update(raw) + finalize()` (axolotl/sessioncipher.py:210-211). -/
def pad (raw : Bytes) : Bytes :=
  let p := 16 - raw.length % 16
  raw ++ List.replicate p (UInt8.ofNat p)

/-- `padding.PKCS7(128).unpadder()`: `update + finalize` (axolotl/sessioncipher.py:222-223).
The argument is a whole number of blocks; empty input or bad padding raises `ValueError`. -/
def unpad (d : Bytes) : Res Bytes :=
  match d.getLast? with
  | none => .error .valueError
  | some v =>
    let n := v.toNat
    if 1 ≤ n ∧ n ≤ 16 ∧ n ≤ d.length ∧ d.drop (d.length - n) = List.replicate n v then
      .ok (d.take (d.length - n))
    else .error .valueError

/-- CBC encryption of `n` blocks (axolotl/sessioncipher.py:207,213-215). -/
def cbcEnc (key : Bytes) : Nat → Bytes → Bytes → Bytes
  | 0, _, _ => []
  | n + 1, prev, d =>
    let c := Crypto.aesEnc key (xorB prev (d.take 16))
    c ++ cbcEnc key n c (d.drop 16)

/-- CBC decryption of `n` blocks (axolotl/sessioncipher.py:207,220-221). -/
def cbcDec (key : Bytes) : Nat → Bytes → Bytes → Bytes
  | 0, _, _ => []
  | n + 1, prev, c =>
    xorB prev (Crypto.aesDec key (c.take 16)) ++ cbcDec key n (c.take 16) (c.drop 16)

/-- `algorithms.AES(key)` and `modes.CBC(iv)` reject bad sizes with `ValueError`
(axolotl/sessioncipher.py:207). -/
def validParams (key iv : Bytes) : Bool :=
  (key.length == 16 || key.length == 24 || key.length == 32) && iv.length == 16

/-- axolotl/sessioncipher.py:209-217 -/
def encrypt (key iv raw : Bytes) : Res Bytes :=
  if validParams key iv then
    let p := pad raw
    .ok (cbcEnc key (p.length / 16) iv p)
  else .error .valueError

/-- axolotl/sessioncipher.py:219-223.  A ciphertext that is not a whole number of blocks makes
`decryptor.finalize()` raise `ValueError`. -/
def decrypt (key iv enc : Bytes) : Res Bytes :=
  if validParams key iv then
    if enc.length % 16 = 0 then unpad (cbcDec key (enc.length / 16) iv enc)
    else .error .valueError
  else .error .valueError

end Axolotl.AES
