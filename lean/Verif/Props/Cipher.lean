import Verif.Proofs.Aes
import Verif.Toy

/-! # C01: the message body cipher -/

namespace Axolotl
variable [C : Crypto]

/-- Decrypting what was encrypted gives the plaintext back; the ciphertext is a whole number of blocks
and between 1 and 16 bytes longer. -/
theorem C01_cipher_roundtrip (hC : C.Lawful) (key iv pt : Bytes)
    (hk : key.length = 16 ∨ key.length = 24 ∨ key.length = 32) (hiv : iv.length = 16) :
    ∃ ct, AES.encrypt key iv pt = .ok ct ∧ AES.decrypt key iv ct = .ok pt ∧
      ct.length % 16 = 0 ∧ pt.length < ct.length ∧ ct.length ≤ pt.length + 16 := by
  have hv : AES.validParams key iv = true := by
    rcases hk with h | h | h <;> simp [AES.validParams, h, hiv]
  have hpl := AES.pad_length pt
  have hd : (AES.pad pt).length = 16 * ((AES.pad pt).length / 16) := by omega
  have hl := AES.cbcEnc_length hC key _ iv (AES.pad pt) hiv hd
  refine ⟨_, by simp [AES.encrypt, hv]; rfl, ?_, by omega, by omega, by omega⟩
  unfold AES.decrypt
  rw [if_pos hv, if_pos (by omega)]
  have : (AES.cbcEnc key ((AES.pad pt).length / 16) iv (AES.pad pt)).length / 16
      = (AES.pad pt).length / 16 := by omega
  rw [this, AES.cbcDec_cbcEnc hC key _ iv _ hiv hd, AES.unpad_pad]

/-- Keys and IVs of the wrong size are refused, in both directions. -/
theorem C01_cipher_bad_params (key iv data : Bytes)
    (h : ¬ ((key.length = 16 ∨ key.length = 24 ∨ key.length = 32) ∧ iv.length = 16)) :
    AES.encrypt key iv data = .error .valueError ∧ AES.decrypt key iv data = .error .valueError := by
  have hv : AES.validParams key iv = false := by
    cases hb : AES.validParams key iv with
    | false => rfl
    | true =>
      exfalso
      apply h
      simp [AES.validParams] at hb
      exact ⟨by rcases hb.1 with (h | h) | h <;> simp [h], hb.2⟩
  simp [AES.encrypt, AES.decrypt, hv]

/-- The hypotheses of `C01_cipher_roundtrip` are met, and the two directions compute, e.g. on an exact
block multiple. -/
example : @AES.decrypt toy (List.replicate 32 7) (List.replicate 16 9)
    ((@AES.encrypt toy (List.replicate 32 7) (List.replicate 16 9) (List.replicate 16 1)).toOption.getD [])
      = .ok (List.replicate 16 1) := by decide +kernel

example := C01_cipher_roundtrip (C := toy) toy_lawful (List.replicate 32 7) (List.replicate 16 9) [1, 2]
  (by simp) (by simp)

end Axolotl
