import Verif.Spec.Session

/-!
# Sessions of protocol version 2

The library creates sessions of version 3 only, but goes on using stored sessions of version 2.  Their key schedule differs in
the first block number of the key derivation, and their MAC does not cover the identities.
-/

namespace Axolotl.Spec
variable [C : Crypto]

/-- The version of a stored session; a missing version or 0 means 2. -/
def versionOf (s : SessionS) : Nat := match s.sessionVersion with | none => 2 | some 0 => 2 | some v => v

/-- HKDF with blocks numbered from 0: `T(0) = HMAC(PRK, info | 0)`, `T(i) = HMAC(PRK, T(i-1) | info | i)`. -/
def hkdf2T (prk info : Bytes) : Nat → Bytes
  | 0 => C.hmac prk (info ++ [0])
  | i + 1 => C.hmac prk (hkdf2T prk info i ++ info ++ [UInt8.ofNat (i + 1)])

/-- The key derivation of version 2. -/
def hkdf2 (salt ikm info : Bytes) (L : Nat) : Bytes :=
  let prk := C.hmac (if salt = [] then List.replicate 32 0 else salt) ikm
  (((List.range ((L + 31) / 32)).map fun i => hkdf2T prk info i).flatten).take L

/-- The 80 bytes of message key material of a chain key. -/
def messageOkm2 (chainKey : Bytes) : Bytes := hkdf2 [] (C.hmac chainKey [0x01]) messageKeysInfo 80

/-- Cipher key, MAC key and IV of a chain key. -/
def cipherKeyOf2 (chainKey : Bytes) : Bytes := (messageOkm2 chainKey).take 32
def macKeyOf2 (chainKey : Bytes) : Bytes := ((messageOkm2 chainKey).drop 32).take 32
def ivOf2 (chainKey : Bytes) : Bytes := (messageOkm2 chainKey).drop 64

/-- New root key and chain key of a Diffie-Hellman ratchet step. -/
def ratchetRoot2 (root secret : Bytes) : Bytes := (hkdf2 root secret ratchetInfo 64).take 32
def ratchetChain2 (root secret : Bytes) : Bytes := (hkdf2 root secret ratchetInfo 64).drop 32

end Axolotl.Spec
