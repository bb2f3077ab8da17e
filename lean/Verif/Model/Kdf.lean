import Verif.Model.ByteUtil
import Verif.Model.Crypto

/-! # axolotl/kdf/*.py -/

namespace Axolotl
variable [Crypto]

/-- The HKDF classes `HKDFv2` (axolotl/kdf/hkdfv2.py:6-8) and `HKDFv3` (axolotl/kdf/hkdfv3.py:6-8);
they differ only in `getIterationStartOffset`. -/
inductive Kdf where
  | v2 | v3
  deriving DecidableEq, Repr

namespace Kdf

/-- axolotl/kdf/hkdf.py:11 -/
def HASH_OUTPUT_SIZE : Nat := 32

/-- axolotl/kdf/hkdfv2.py:7-8, axolotl/kdf/hkdfv3.py:7-8 -/
def startOffset : Kdf → Nat
  | .v2 => 0
  | .v3 => 1

/-- axolotl/kdf/hkdf.py:13-23 `HKDF.createFor(messageVersion)` -/
def createFor (version : Nat) : Res Kdf :=
  if version = 2 then .ok .v2 else if version = 3 then .ok .v3 else .error .assertionError

/-- `chr(c).encode()` for `c < 256` (Python 3: UTF-8), axolotl/kdf/hkdf.py:46-47. -/
def chrEncode (c : Nat) : Bytes :=
  if c < 128 then [UInt8.ofNat c]
  else [UInt8.ofNat (0xC0 + c / 64), UInt8.ofNat (0x80 + c % 64)]

/-- The `for` loop of axolotl/kdf/hkdf.py:41-53: `n` iterations left, counter `i`. -/
def expandLoop (prk info : Bytes) : Nat → Nat → Bytes → Nat → Bytes
  | 0, _, _, _ => []
  | n + 1, i, mixin, remaining =>
    let stepResult := Crypto.hmac prk (mixin ++ info ++ chrEncode (i % 256))
    let stepSize := min remaining stepResult.length
    stepResult.take stepSize ++ expandLoop prk info n (i + 1) stepResult (remaining - stepSize)

/-- axolotl/kdf/hkdf.py:35-55.  `int(math.ceil(float(n)/32.0))` is exact for the sizes the float
can represent (`n < 2^53`); modelled as integer ceiling (simplification).  `info` is never `None`
in the callers. -/
def expand (k : Kdf) (prk info : Bytes) (outputSize : Nat) : Bytes :=
  expandLoop prk info ((outputSize + 31) / HASH_OUTPUT_SIZE) k.startOffset [] outputSize

/-- axolotl/kdf/hkdf.py:30-33 -/
def extract (salt ikm : Bytes) : Bytes := Crypto.hmac salt ikm

/-- axolotl/kdf/hkdf.py:25-28; `salt or bytearray(32)`: an absent *or empty* salt becomes zeros. -/
def deriveSecrets (k : Kdf) (ikm info : Bytes) (outputLength : Nat) (salt : Bytes := []) : Bytes :=
  let salt := if salt = [] then List.replicate HASH_OUTPUT_SIZE 0 else salt
  expand k (extract salt ikm) info outputLength

end Kdf

/-- axolotl/kdf/messagekeys.py:4-21 -/
structure MessageKeys where
  cipherKey : Bytes
  macKey : Bytes
  iv : Bytes
  counter : Nat
  deriving DecidableEq, Repr

namespace DerivedMessageSecrets
/-- axolotl/kdf/derivedmessagesecrets.py:7 -/
def SIZE : Nat := 80
end DerivedMessageSecrets

namespace DerivedRootSecrets
/-- axolotl/kdf/derivedrootsecrets.py:7 -/
def SIZE : Nat := 64
end DerivedRootSecrets

end Axolotl
