import Verif.Real.Prime
import Mathlib.FieldTheory.Finite.Basic

/-!
# The arithmetic modulo `2 ^ 255 - 19` is that of the field

The functions of `Fp` on natural numbers, seen in `ZMod P25519`.
-/

namespace Axolotl.Real

instance : Fact (Nat.Prime P25519) := ⟨prime_P25519⟩

/-- The field of the curve. -/
abbrev Fld := ZMod P25519

theorem P25519_pos : 0 < P25519 := prime_P25519.pos

theorem P25519_lt : P25519 < top255 := by decide +kernel

theorem top255_lt : top255 < 2 ^ 256 := by decide +kernel

/-- Numbers below the prime are equal if they are in the field. -/
theorem eq_of_cast {a b : Nat} (ha : a < P25519) (hb : b < P25519) (h : (a : Fld) = (b : Fld)) : a = b := by
  have := (ZMod.natCast_eq_natCast_iff' a b P25519).1 h
  rwa [Nat.mod_eq_of_lt ha, Nat.mod_eq_of_lt hb] at this

namespace Fp

theorem mul_def (a b : Nat) : mul a b = a * b % P25519 := rfl

@[simp] theorem cast_mul (a b : Nat) : ((mul a b : Nat) : Fld) = (a : Fld) * (b : Fld) := by
  rw [mul_def, ZMod.natCast_mod, Nat.cast_mul]

@[simp] theorem cast_add (a b : Nat) : ((add a b : Nat) : Fld) = (a : Fld) + (b : Fld) := by
  rw [add, ZMod.natCast_mod, Nat.cast_add]

@[simp] theorem cast_sub (a b : Nat) : ((sub a b : Nat) : Fld) = (a : Fld) - (b : Fld) := by
  have hlt : b % P25519 ≤ P25519 := le_of_lt (Nat.mod_lt _ P25519_pos)
  rw [sub, ZMod.natCast_mod, Nat.cast_add, Nat.cast_sub hlt, ZMod.natCast_mod, ZMod.natCast_self]
  ring

theorem mul_lt (a b : Nat) : mul a b < P25519 := Nat.mod_lt _ P25519_pos
theorem add_lt (a b : Nat) : add a b < P25519 := Nat.mod_lt _ P25519_pos
theorem sub_lt (a b : Nat) : sub a b < P25519 := Nat.mod_lt _ P25519_pos

theorem powBits_eq (a e n acc : Nat) : powBits a e n acc = powMod P25519 a e n acc := rfl

theorem cast_pow (a e : Nat) (he : e < 2 ^ 256) : ((pow a e : Nat) : Fld) = (a : Fld) ^ e := by
  rw [pow, powBits_eq, powMod_eq _ _ _ he]

theorem cast_sqN (n a : Nat) : ((sqN n a : Nat) : Fld) = (a : Fld) ^ 2 ^ n := by
  induction n generalizing a with
  | zero => simp [sqN]
  | succ n ih =>
    show ((force (mul a a) fun s => sqN n s : Nat) : Fld) = _
    rw [force_eq, ih, cast_mul, ← sq, ← pow_mul, pow_succ' 2 n]

theorem cast_inv_pow (a : Nat) : ((inv a : Nat) : Fld) = (a : Fld) ^ (P25519 - 2) := by
  unfold inv
  simp only [force_eq, cast_mul, cast_sqN]
  generalize (a : Fld) = x
  have e : P25519 - 2 = 57896044618658097711785492504343953926634992332820282019728792003956564819947 := by decide +kernel
  rw [e]
  simp only [← pow_mul, ← pow_succ, ← pow_add, ← pow_two]
  norm_num

@[simp] theorem cast_inv (a : Nat) : ((inv a : Nat) : Fld) = (a : Fld)⁻¹ := by
  rw [cast_inv_pow]
  by_cases h : (a : Fld) = 0
  · rw [h, inv_zero]
    exact zero_pow (by decide +kernel)
  · have h1 := ZMod.pow_card_sub_one_eq_one h
    have h2 : P25519 - 1 = (P25519 - 2) + 1 := by decide +kernel
    rw [h2, pow_succ] at h1
    exact eq_inv_of_mul_eq_one_left h1

theorem inv_lt (a : Nat) : inv a < P25519 := by
  unfold inv
  simp only [force_eq]
  exact mul_lt _ _

theorem sqrtM1_sq : mul sqrtM1 sqrtM1 = P25519 - 1 := by decide +kernel

theorem cast_sqrtM1 : (sqrtM1 : Fld) * (sqrtM1 : Fld) = -1 := by
  have h := congrArg (Nat.cast (R := Fld)) sqrtM1_sq
  rw [cast_mul, Nat.cast_sub P25519_pos, ZMod.natCast_self, Nat.cast_one] at h
  rw [h]
  ring

theorem powMod_lt (n a e k acc : Nat) (hn : 0 < n) (h : acc < n) : powMod n a e k acc < n := by
  induction k generalizing acc with
  | zero => exact h
  | succ k ih =>
    show (force (Nat.mod (Nat.mul acc acc) n) fun s =>
      bif Nat.testBit e k then force (Nat.mod (Nat.mul s a) n) fun t => powMod n a e k t else powMod n a e k s : Nat) < n
    simp only [force_eq]
    cases e.testBit k with
    | false => exact ih _ (Nat.mod_lt _ hn)
    | true => exact ih _ (Nat.mod_lt _ hn)

theorem sqrt_lt {a r : Nat} (h : sqrt a = some r) : r < P25519 := by
  unfold sqrt at h
  simp only [force_eq] at h
  split at h
  · injection h with h
    rw [← h, pow, powBits_eq]
    exact powMod_lt _ _ _ _ _ P25519_pos prime_P25519.one_lt
  · split at h
    · injection h with h
      exact h ▸ mul_lt _ _
    · cases h

/-- A root that is found is one. -/
theorem sqrt_sound {a r : Nat} (h : sqrt a = some r) : mul r r = a := by
  unfold sqrt at h
  simp only [force_eq] at h
  split at h
  · rename_i e
    injection h with h
    exact h ▸ e
  · split at h
    · rename_i e
      injection h with h
      exact h ▸ e
    · cases h

/-- The root of a square is found. -/
theorem sqrt_complete (a v : Nat) (ha : a < P25519) (h : (a : Fld) = (v : Fld) ^ 2) (h0 : (v : Fld) ≠ 0) : ∃ r, sqrt a = some r := by
  have he : (P25519 + 3) / 8 < 2 ^ 256 := by decide +kernel
  generalize hr : pow a ((P25519 + 3) / 8) = r
  have hrc : (r : Fld) = (a : Fld) ^ ((P25519 + 3) / 8) := by rw [← hr, cast_pow _ _ he]
  have h4 : (r : Fld) ^ 4 = (a : Fld) ^ 2 := by
    rw [hrc, h, ← pow_mul, ← pow_mul, ← pow_mul]
    have e : 2 * ((P25519 + 3) / 8 * 4) = (P25519 - 1) + 2 * 2 := by decide +kernel
    rw [e, pow_add, ZMod.pow_card_sub_one_eq_one h0, one_mul]
  have h5 : ((r : Fld) ^ 2 - a) * ((r : Fld) ^ 2 + a) = 0 := by linear_combination h4
  unfold sqrt
  simp only [force_eq, hr]
  by_cases h1 : mul r r = a
  · exact ⟨r, by rw [if_pos h1]⟩
  · rw [if_neg h1]
    refine ⟨_, if_pos ?_⟩
    apply eq_of_cast (mul_lt _ _) ha
    simp only [cast_mul]
    rcases mul_eq_zero.1 h5 with h6 | h6
    · exact absurd (eq_of_cast (mul_lt _ _) ha (by rw [cast_mul]; linear_combination h6)) h1
    · linear_combination (r : Fld) ^ 2 * cast_sqrtM1 - h6

end Fp

end Axolotl.Real
