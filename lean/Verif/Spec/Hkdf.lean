import Verif.Model.Crypto

/-! # RFC 5869 (HKDF) written from the RFC text, using only HMAC -/

namespace Axolotl.Spec
variable [Crypto]

/-- `T(0) = ""`, `T(i) = HMAC(PRK, T(i-1) | info | i)` with `i` a single octet. -/
def hkdfT (prk info : Bytes) : Nat → Bytes
  | 0 => []
  | i + 1 => Crypto.hmac prk (hkdfT prk info i ++ info ++ [UInt8.ofNat (i + 1)])

/-- `OKM` = first `L` octets of `T(1) | T(2) | ... | T(N)`, `N = ceil(L / 32)`;
`PRK = HMAC(salt, IKM)`, where an absent salt is 32 zero octets. -/
def hkdf (salt ikm info : Bytes) (L : Nat) : Bytes :=
  let prk := Crypto.hmac (if salt = [] then List.replicate 32 0 else salt) ikm
  (((List.range ((L + 31) / 32)).map fun i => hkdfT prk info (i + 1)).flatten).take L

end Axolotl.Spec
