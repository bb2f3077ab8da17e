import Verif.Model.Kdf
import Verif.Spec.Hkdf
import Verif.Toy

/-! # C11: key derivation is HKDF -/

namespace Axolotl
variable [C : Crypto]
open Spec

theorem expandLoop_length (hlen : ∀ k m, (C.hmac k m).length = 32) (prk info : Bytes) :
    ∀ n i mixin rem, rem ≤ 32 * n → (Kdf.expandLoop prk info n i mixin rem).length = rem := by
  intro n
  induction n with
  | zero => intro i mixin rem h; simp [Kdf.expandLoop]; omega
  | succ n ih =>
    intro i mixin rem h
    simp only [Kdf.expandLoop, List.length_append, List.length_take, hlen]
    rw [ih _ _ _ (by omega)]
    omega

theorem expandLoop_eq (hlen : ∀ k m, (C.hmac k m).length = 32) (prk info : Bytes) :
    ∀ n i rem, i + n ≤ 127 →
      Kdf.expandLoop prk info n (i + 1) (hkdfT prk info i) rem
        = (((List.range n).map fun j => hkdfT prk info (i + j + 1)).flatten).take rem := by
  intro n
  induction n with
  | zero => intro i rem _; simp [Kdf.expandLoop]
  | succ n ih =>
    intro i rem h
    have hT : Crypto.hmac prk (hkdfT prk info i ++ info ++ Kdf.chrEncode ((i + 1) % 256))
        = hkdfT prk info (i + 1) := by
      rw [hkdfT, Nat.mod_eq_of_lt (by omega)]
      simp [Kdf.chrEncode, show i + 1 < 128 by omega]
    simp only [Kdf.expandLoop]
    rw [hT, ih (i + 1) _ (by omega)]
    have hl : (hkdfT prk info (i + 1)).length = 32 := by rw [hkdfT]; exact hlen _ _
    rw [List.range_succ_eq_map, List.map_cons, List.flatten_cons, List.take_append, hl]
    congr 1
    · by_cases hr : rem ≤ 32
      · rw [Nat.min_eq_left hr]
      · rw [Nat.min_eq_right (by omega), List.take_of_length_le (by omega)]
        simp only [Nat.add_zero]
        rw [List.take_of_length_le (by omega)]
    · have : rem - min rem 32 = rem - 32 := by omega
      rw [this, List.map_map]
      have : ((fun j => hkdfT prk info (i + j + 1)) ∘ Nat.succ)
          = fun j => hkdfT prk info (i + 1 + j + 1) := by
        funext j
        simp only [Function.comp]
        congr 1
        omega
      rw [this]

/-- The output always has the requested length, for either version and any length. -/
theorem C11_length (hlen : ∀ k m, (C.hmac k m).length = 32) (k : Kdf) (ikm info : Bytes) (L : Nat)
    (salt : Bytes) : (k.deriveSecrets ikm info L salt).length = L := by
  unfold Kdf.deriveSecrets Kdf.expand
  exact expandLoop_length hlen _ _ _ _ _ _ (by simp only [Kdf.HASH_OUTPUT_SIZE]; omega)

/-- Up to 127 blocks (4064 bytes) version-3 key derivation is RFC 5869.  Missing for the full
statement: lengths from 4065 to 8160, where it is false (`C11_not_rfc5869`). -/
theorem C11_hkdf_partial (hlen : ∀ k m, (C.hmac k m).length = 32) (ikm info salt : Bytes) (L : Nat)
    (hL : L ≤ 127 * 32) : Kdf.v3.deriveSecrets ikm info L salt = hkdf salt ikm info L := by
  unfold Kdf.deriveSecrets Kdf.expand hkdf Kdf.extract
  have h := expandLoop_eq hlen
    (Crypto.hmac (if salt = [] then List.replicate 32 0 else salt) ikm) info ((L + 31) / 32) 0 L (by omega)
  simp only [hkdfT, Nat.zero_add] at h
  simp only [Kdf.startOffset, Kdf.HASH_OUTPUT_SIZE]
  exact h

/-- All outputs the library itself asks for (80, 64 and 48 bytes) are RFC 5869 outputs. -/
theorem C11_library_sizes (hlen : ∀ k m, (C.hmac k m).length = 32) (ikm info salt : Bytes) :
    Kdf.v3.deriveSecrets ikm info 80 salt = hkdf salt ikm info 80 ∧
    Kdf.v3.deriveSecrets ikm info 64 salt = hkdf salt ikm info 64 ∧
    Kdf.v3.deriveSecrets ikm info 48 salt = hkdf salt ikm info 48 :=
  ⟨C11_hkdf_partial hlen _ _ _ _ (by omega), C11_hkdf_partial hlen _ _ _ _ (by omega),
   C11_hkdf_partial hlen _ _ _ _ (by omega)⟩

omit C in
/-- The full statement (255 blocks) is false: from block 128 on the counter is UTF-8 encoded into two
bytes. -/
theorem C11_not_rfc5869 : ¬ ∀ (C : Crypto), C.Lawful → ∀ (ikm info salt : Bytes) (L : Nat),
    L ≤ 255 * 32 → Kdf.v3.deriveSecrets ikm info L salt = hkdf salt ikm info L := by
  intro h
  have := h toy toy_lawful [1] [2] [3] (128 * 32) (by omega)
  revert this
  decide +kernel

example := C11_hkdf_partial (C := toy) toy_lawful.hmac_len [1] [2] [3] 80 (by omega)

end Axolotl
