import Verif.Model.Crypto
import Verif.Real.Laws
import Verif.Real.Aes

/-! # The primitives the library is used with

`real` is the `Crypto` instance made of reference implementations: HMAC-SHA-256 (RFC 2104 over FIPS 180-4), X25519 (RFC 7748), the
signatures of the `python-axolotl-curve25519` extension, AES (FIPS 197).  It has every property that `Crypto.Lawful` asks for. -/

namespace Axolotl

/-- The primitives of the `hmac`/`hashlib` modules, of `cryptography` and of `axolotl_curve25519`. -/
@[reducible] def real : Crypto where
  hmac := Real.hmacSha256
  genPriv := Real.X25519.genPriv
  genPub := Real.X25519.genPub
  dh := Real.X25519.dh
  verifySig := Real.XEd.verifySig
  calcSig := Real.XEd.calcSig
  aesEnc := Real.Aes.enc
  aesDec := Real.Aes.dec

theorem real_lawful : real.Lawful where
  hmac_len := Real.hmacSha256_length
  genPriv_len := fun r _ => Real.X25519.genPriv_length r
  genPub_len := fun k _ => Real.X25519.genPub_length k
  dh_comm := Real.X25519.dh_comm
  dh_size := by
    intro a b s h
    change Real.X25519.dh a b = some s at h
    unfold Real.X25519.dh at h
    split at h
    · assumption
    · cases h
  dh_total := by
    intro a b ha hb
    exact ⟨_, if_pos ⟨ha, hb⟩⟩
  sig_ok := by
    intro r k m hr hk
    obtain ⟨hk, seed, rfl⟩ := hk
    refine ⟨_, if_pos ⟨hr, hk⟩, Real.XEd.sign_length _ _ _, ?_⟩
    refine (if_pos ⟨Real.X25519.genPub_length _, Real.XEd.sign_length _ _ _⟩).trans ?_
    exact congrArg some (Real.XEd.verify_sign _ _ _)
  sig_size := by
    intro r k m s h
    change Real.XEd.calcSig r k m = some s at h
    unfold Real.XEd.calcSig at h
    split at h
    · rename_i hc
      rw [← Option.some.inj h]
      exact ⟨hc.2, Real.XEd.sign_length _ _ _⟩
    · cases h
  verify_len := by
    intro k m s b h
    change Real.XEd.verifySig k m s = some b at h
    unfold Real.XEd.verifySig at h
    split at h
    · rename_i hc
      exact hc.2
    · cases h
  aes_len := Real.Aes.enc_length
  aes_dec_len := Real.Aes.dec_length
  aes_dec_enc := Real.Aes.dec_enc

end Axolotl
