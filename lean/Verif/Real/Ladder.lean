import Verif.Real.Field
import Verif.Real.Montgomery

/-!
# X25519 computes multiples of points, and both sides of an agreement get the same number
-/

namespace Axolotl.Real

open WeierstrassCurve Mont Fp

/-- The coefficient of Curve25519. -/
abbrev CA : Fld := ((486662 : Nat) : Fld)

theorem cast_ne_zero {n : Nat} (h0 : n ≠ 0) (h : n < P25519) : (n : Fld) ≠ 0 := by
  intro he
  exact h0 (eq_of_cast h P25519_pos (by rw [he, Nat.cast_zero]))

theorem good : Good CA where
  two := by
    have := cast_ne_zero (n := 2) (by decide) (by decide +kernel)
    exact_mod_cast this
  plus := by
    have := cast_ne_zero (n := 486664) (by decide) (by decide +kernel)
    intro h
    apply this
    rw [← h]
    push_cast
    ring
  minus := by
    have := cast_ne_zero (n := 486660) (by decide) (by decide +kernel)
    intro h
    apply this
    rw [← h]
    push_cast
    ring

/-- The points of Curve25519 over its field. -/
abbrev CPoint := (W CA).Point

/-- The first coordinate; 0 for the neutral element. -/
def xOf : CPoint → Fld
  | .zero => 0
  | .some x _ _ => x

theorem xOf_rep {P : CPoint} {X Z : Fld} (h : Rep P X Z) : X * Z⁻¹ = xOf P := by
  match P, h with
  | .zero, ⟨hz, _⟩ => rw [hz, inv_zero, mul_zero]; rfl
  | .some x y _, ⟨hz, hx⟩ =>
    rw [hx, mul_assoc, mul_inv_cancel₀ hz, mul_one]
    rfl

namespace X25519

theorem step0_eq (x1 x2 z2 x3 z3 : Nat) (k : Nat → Nat → Nat → Nat → Nat) :
    ∃ x4 z4 x5 z5, step0 x1 x2 z2 x3 z3 k = k x4 z4 x5 z5 ∧
      (x4 : Fld) = ((x2 : Fld) ^ 2 - (z2 : Fld) ^ 2) ^ 2 ∧
      (z4 : Fld) = 4 * x2 * z2 * ((x2 : Fld) ^ 2 + CA * x2 * z2 + (z2 : Fld) ^ 2) ∧
      (x5 : Fld) = 4 * ((x2 : Fld) * x3 - z2 * z3) ^ 2 ∧
      (z5 : Fld) = 4 * x1 * ((x2 : Fld) * z3 - x3 * z2) ^ 2 := by
  unfold step0
  simp only [force_eq]
  refine ⟨_, _, _, _, rfl, ?_, ?_, ?_, ?_⟩
  · simp only [cast_mul, cast_add, cast_sub]
    ring
  · simp only [cast_mul, cast_add, cast_sub]
    push_cast
    ring
  · simp only [cast_mul, cast_add, cast_sub]
    ring
  · simp only [cast_mul, cast_add, cast_sub]
    ring

theorem rep_congr {P : CPoint} {X Z X' Z' : Fld} (h : Rep P X Z) (hx : X' = X) (hz : Z' = Z) : Rep P X' Z' := by rw [hx, hz]; exact h

/-- The ladder, from the multiples `m` and `m + 1` on. -/
theorem ladder_eq (s x1 n : Nat) (y1 : Fld) (hB : (W CA).Nonsingular (x1 : Fld) y1) (hx1 : (x1 : Fld) ≠ 0) (m x2 z2 x3 z3 : Nat)
    (h2 : Rep (m • (.some _ _ hB : CPoint)) (x2 : Fld) z2)
    (h3 : Rep (m • (.some _ _ hB : CPoint) + .some _ _ hB) (x3 : Fld) z3) :
    ((ladder s x1 n x2 z2 x3 z3 : Nat) : Fld) = xOf ((m * 2 ^ n + s % 2 ^ n) • (.some _ _ hB : CPoint)) := by
  induction n generalizing m x2 z2 x3 z3 with
  | zero =>
    rw [ladder, cast_mul, cast_inv, xOf_rep h2, Nat.pow_zero, Nat.mod_one, Nat.mul_one, Nat.add_zero]
  | succ n ih =>
    generalize hG : (.some _ _ hB : CPoint) = B at h2 h3 ih ⊢
    have hdbl := Rep.double good h2
    have hdbl3 := Rep.double good h3
    have hadd := Rep.add good hB hx1 h2 (by rw [hG]; exact h3)
    rw [hG] at hadd
    have e2 : m • B + m • B = (2 * m) • B := by rw [two_mul, add_nsmul]
    have e3 : m • B + B + (m • B + B) = (2 * m + 1) • B + B := by rw [add_nsmul, one_nsmul, two_mul, add_nsmul]; abel
    have e5 : m • B + (m • B + B) = (2 * m) • B + B := by rw [two_mul, add_nsmul]; abel
    have e6 : m • B + (m • B + B) = (2 * m + 1) • B := by rw [add_nsmul, one_nsmul, two_mul, add_nsmul]; abel
    have hmod := mod_two_pow_succ_testBit s n
    rw [Nat.toNat_testBit] at hmod
    rw [ladder]
    split
    · rename_i hbit
      obtain ⟨x4, z4, x5, z5, e, hx4, hz4, hx5, hz5⟩ := step0_eq x1 x3 z3 x2 z2 fun x4 z4 x5 z5 => ladder s x1 n x5 z5 x4 z4
      rw [e, ih (2 * m + 1)]
      · congr 2
        rw [hmod, hbit]
        ring
      · exact e6 ▸ rep_congr hadd (by rw [hx5]; ring) (by rw [hz5]; ring)
      · exact e3 ▸ rep_congr hdbl3 hx4 hz4
    · rename_i hbit
      have hbit' : s / 2 ^ n % 2 = 0 := by omega
      obtain ⟨x4, z4, x5, z5, e, hx4, hz4, hx5, hz5⟩ := step0_eq x1 x2 z2 x3 z3 fun x4 z4 x5 z5 => ladder s x1 n x4 z4 x5 z5
      rw [e, ih (2 * m)]
      · congr 2
        rw [hmod, hbit']
        ring
      · exact e2 ▸ rep_congr hdbl hx4 hz4
      · exact e5 ▸ rep_congr hadd hx5 hz5

theorem ladder_lt (s x1 n x2 z2 x3 z3 : Nat) : ladder s x1 n x2 z2 x3 z3 < P25519 := by
  induction n generalizing x2 z2 x3 z3 with
  | zero => exact mul_lt _ _
  | succ n ih =>
    rw [ladder]
    split
    · unfold step0
      simp only [force_eq]
      exact ih _ _ _ _
    · unfold step0
      simp only [force_eq]
      exact ih _ _ _ _

theorem clamp_lt (n : Nat) : clamp n < 2 ^ 255 := by
  unfold clamp
  have : n % 2 ^ 254 < 2 ^ 254 := Nat.mod_lt _ (by norm_num)
  have := Nat.div_mul_le_self (n % 2 ^ 254) 8
  omega

theorem clamp_clamp (n : Nat) : clamp (clamp n) = clamp n := by
  unfold clamp
  have h1 : n % 2 ^ 254 < 2 ^ 254 := Nat.mod_lt _ (by norm_num)
  have h2 := Nat.div_mul_le_self (n % 2 ^ 254) 8
  generalize n % 2 ^ 254 = m at *
  have h3 : (2 ^ 254 + m / 8 * 8) % 2 ^ 254 = m / 8 * 8 := by
    rw [Nat.add_mod_left]
    exact Nat.mod_eq_of_lt (by omega)
  rw [h3, Nat.mul_div_cancel _ (by norm_num)]

theorem scalarMul_lt (s u : Nat) : scalarMul s u < P25519 := by
  unfold scalarMul
  rw [force_eq]
  exact ladder_lt _ _ _ _ _ _ _

theorem ladder_flat (s x1 n : Nat) (hx1 : (x1 : Fld) = 0) (x2 z2 x3 z3 : Nat) (h2 : (z2 : Fld) = 0) (h3 : (z3 : Fld) = 0) :
    ((ladder s x1 n x2 z2 x3 z3 : Nat) : Fld) = 0 := by
  induction n generalizing x2 z2 x3 z3 with
  | zero => rw [ladder, cast_mul, cast_inv, h2, inv_zero, mul_zero]
  | succ n ih =>
    rw [ladder]
    split
    · obtain ⟨x4, z4, x5, z5, e, hx4, hz4, hx5, hz5⟩ := step0_eq x1 x3 z3 x2 z2 fun x4 z4 x5 z5 => ladder s x1 n x5 z5 x4 z4
      rw [e]
      exact ih _ _ _ _ (by rw [hz5, hx1]; ring) (by rw [hz4, h3]; ring)
    · obtain ⟨x4, z4, x5, z5, e, hx4, hz4, hx5, hz5⟩ := step0_eq x1 x2 z2 x3 z3 fun x4 z4 x5 z5 => ladder s x1 n x4 z4 x5 z5
      rw [e]
      exact ih _ _ _ _ (by rw [hz4, h2]; ring) (by rw [hz5, hx1]; ring)

/-- Every multiple of the coordinate 0 is 0. -/
theorem scalarMul_zero (s : Nat) : scalarMul s 0 = 0 := by
  apply eq_of_cast (scalarMul_lt _ _) P25519_pos
  unfold scalarMul
  rw [force_eq, Nat.zero_mod, Nat.zero_mod, ladder]
  split
  · obtain ⟨x4, z4, x5, z5, e, hx4, hz4, hx5, hz5⟩ := step0_eq 0 0 1 1 0 fun x4 z4 x5 z5 => ladder s 0 255 x5 z5 x4 z4
    rw [e, ladder_flat _ _ _ Nat.cast_zero _ _ _ _ (by rw [hz5, Nat.cast_zero]; ring) (by rw [hz4, Nat.cast_zero]; ring), Nat.cast_zero]
  · obtain ⟨x4, z4, x5, z5, e, hx4, hz4, hx5, hz5⟩ := step0_eq 0 1 0 0 1 fun x4 z4 x5 z5 => ladder s 0 255 x4 z4 x5 z5
    rw [e, ladder_flat _ _ _ Nat.cast_zero _ _ _ _ (by rw [hz4, Nat.cast_zero]; ring) (by rw [hz5, Nat.cast_zero]; ring), Nat.cast_zero]

/-- The multiple of the first coordinate of a point other than `(0, 0)` is that of the multiple. -/
theorem scalarMul_eq (s u : Nat) (hu : u < P25519) (v : Fld) (hB : (W CA).Nonsingular (u : Fld) v) (hu0 : (u : Fld) ≠ 0) :
    ((scalarMul s u : Nat) : Fld) = xOf ((s % 2 ^ 256) • (.some _ _ hB : CPoint)) := by
  unfold scalarMul
  have e : u % top255 % P25519 = u := by
    rw [Nat.mod_eq_of_lt (lt_trans hu P25519_lt), Nat.mod_eq_of_lt hu]
  rw [force_eq, e, ladder_eq _ _ _ v hB hu0 0, Nat.zero_mul, Nat.zero_add]
  · rw [zero_nsmul]
    exact ⟨Nat.cast_zero, by rw [Nat.cast_one]; exact one_ne_zero⟩
  · rw [zero_nsmul, zero_add]
    exact ⟨by rw [Nat.cast_one]; exact one_ne_zero, by rw [Nat.cast_one, mul_one]⟩

end X25519

end Axolotl.Real
