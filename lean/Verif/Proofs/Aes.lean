import Verif.Model.Aes

/-! Lemmas about CBC and PKCS7. -/

namespace Axolotl.AES
variable [C : Crypto]

omit C in
theorem xorB_length (a b : Bytes) : (xorB a b).length = min a.length b.length := by simp [xorB]

omit C in
theorem xorB_cancel (a b : Bytes) (h : a.length = b.length) : xorB a (xorB a b) = b := by
  induction a generalizing b with
  | nil => cases b <;> simp_all [xorB]
  | cons x xs ih =>
    cases b with
    | nil => simp at h
    | cons y ys =>
      have := ih ys (by simpa using h)
      simp only [xorB, List.zipWith_cons_cons] at this ⊢
      rw [this]
      congr 1
      rw [← UInt8.xor_assoc, UInt8.xor_self, UInt8.zero_xor]

theorem cbcEnc_length (hC : C.Lawful) (key : Bytes) (n : Nat) (prev d : Bytes) (hp : prev.length = 16)
    (hd : d.length = 16 * n) : (cbcEnc key n prev d).length = 16 * n := by
  induction n generalizing prev d with
  | zero => simp [cbcEnc]
  | succ n ih =>
    have hx : (xorB prev (d.take 16)).length = 16 := by
      rw [xorB_length, List.length_take]; omega
    have hc := hC.aes_len key _ hx
    simp only [cbcEnc, List.length_append]
    rw [hc, ih _ _ hc (by rw [List.length_drop]; omega)]
    omega

theorem cbcDec_cbcEnc (hC : C.Lawful) (key : Bytes) (n : Nat) (prev d : Bytes) (hp : prev.length = 16)
    (hd : d.length = 16 * n) : cbcDec key n prev (cbcEnc key n prev d) = d := by
  induction n generalizing prev d with
  | zero =>
    have : d = [] := List.length_eq_zero_iff.mp (by omega)
    simp [cbcDec, this]
  | succ n ih =>
    have hx : (xorB prev (d.take 16)).length = 16 := by
      rw [xorB_length, List.length_take]; omega
    have hc := hC.aes_len key _ hx
    simp only [cbcEnc, cbcDec]
    rw [List.take_append_of_le_length (by omega), List.take_of_length_le (by omega),
      List.drop_append_of_le_length (by omega), List.drop_of_length_le (by omega), List.nil_append,
      ih _ _ hc (by rw [List.length_drop]; omega), hC.aes_dec_enc key _ hx,
      xorB_cancel prev _ (by rw [List.length_take]; omega), List.take_append_drop]

omit C in
theorem pad_length (raw : Bytes) : (pad raw).length = raw.length + (16 - raw.length % 16) := by
  simp [pad]

omit C in
theorem unpad_pad (raw : Bytes) : unpad (pad raw) = .ok raw := by
  have hp : 1 ≤ 16 - raw.length % 16 := by omega
  unfold unpad pad
  simp only
  generalize hq : 16 - raw.length % 16 = p at hp ⊢
  have hp2 : p ≤ 16 := by omega
  have hlast : (raw ++ List.replicate p (UInt8.ofNat p)).getLast? = some (UInt8.ofNat p) := by
    rw [List.getLast?_append]
    have : (List.replicate p (UInt8.ofNat p)).getLast? = some (UInt8.ofNat p) := by
      rw [List.getLast?_replicate]; rw [if_neg (by omega)]
    rw [this]; rfl
  rw [hlast]
  have hn : (UInt8.ofNat p).toNat = p := by simp; omega
  simp only [hn]
  have hl : (raw ++ List.replicate p (UInt8.ofNat p)).length - p = raw.length := by simp
  rw [hl, if_pos]
  · simp
  · refine ⟨by omega, by omega, by simp, ?_⟩
    simp

end Axolotl.AES
