import Verif.Real.Ladder

/-!
# The point arithmetic of the signatures is the group law, and the base point has prime order
-/

namespace Axolotl.Real

open WeierstrassCurve Mont Fp

namespace XEd

/-- The numbers are the coordinates of the point. -/
def IsPt : CPoint → Pt → Prop
  | .zero, p => p = none
  | .some x y _, p => ∃ a b, p = some (a, b) ∧ a < P25519 ∧ b < P25519 ∧ (a : Fld) = x ∧ (b : Fld) = y

theorem IsPt.unique {P : CPoint} {p q : Pt} (hp : IsPt P p) (hq : IsPt P q) : p = q := by
  match P, hp, hq with
  | .zero, hp, hq => rw [hp, hq]
  | .some x y _, ⟨a, b, e, ha, hb, hx, hy⟩, ⟨a', b', e', ha', hb', hx', hy'⟩ =>
    rw [e, e', eq_of_cast ha ha' (hx.trans hx'.symm), eq_of_cast hb hb' (hy.trans hy'.symm)]

/-- Two numbers on the curve are a point. -/
theorem isPt_some {a b : Nat} (h : (W CA).Nonsingular (a : Fld) (b : Fld)) (ha : a < P25519) (hb : b < P25519) :
    IsPt (.some _ _ h) (some (a, b)) :=
  ⟨a, b, rfl, ha, hb, rfl, rfl⟩

theorem isPt_none {P : CPoint} (h : IsPt P none) : P = 0 := by
  match P, h with
  | .zero, _ => rfl
  | .some _ _ _, ⟨_, _, e, _⟩ => cases e

theorem IsPt.neg {P : CPoint} {p : Pt} (h : IsPt P p) : IsPt (-P) (negPt p) := by
  match P, h with
  | .zero, h =>
    have hn : p = none := h
    rw [hn]
    exact rfl
  | .some x y hp, ⟨a, b, e, ha, hb, hx, hy⟩ =>
    rw [e]
    refine ⟨a, sub 0 b, rfl, ha, sub_lt _ _, hx, ?_⟩
    rw [cast_sub, Nat.cast_zero, hy, negY_W]
    ring

theorem isPt_third {P Q : CPoint} {x1 y1 x2 y2 : Fld} {h1 : (W CA).Nonsingular x1 y1} {h2 : (W CA).Nonsingular x2 y2}
    (hP : P = .some x1 y1 h1) (hQ : Q = .some x2 y2 h2) (hne : ¬(x1 = x2 ∧ y1 = (W CA).negY x2 y2)) {l a b c : Nat}
    (ha : (a : Fld) = x1) (hb : (b : Fld) = y1) (hc : (c : Fld) = x2) (hl : (l : Fld) = (W CA).slope x1 x2 y1 y2) :
    IsPt (P + Q) (third l a b c) := by
  rw [hP, hQ, Affine.Point.add_some hne]
  unfold third
  simp only [force_eq]
  have hX : ((sub (sub (sub (mul l l) 486662) a) c : Nat) : Fld) = (W CA).addX x1 x2 ((W CA).slope x1 x2 y1 y2) := by
    simp only [cast_sub, cast_mul, hl, ha, hc, Affine.addX, W_a₁, W_a₂]
    ring
  refine ⟨_, _, rfl, sub_lt _ _, sub_lt _ _, hX, ?_⟩
  rw [Affine.addY, negY_W, Affine.negAddY, ← hX]
  simp only [cast_sub, cast_mul, ← hl, ha, hb, hc]
  ring

theorem IsPt.add {P Q : CPoint} {p q : Pt} (hp : IsPt P p) (hq : IsPt Q q) : IsPt (P + Q) (addPt p q) := by
  match P, hp, Q, hq with
  | .zero, hp, Q, hq =>
    have hn : p = none := hp
    have e : (.zero + Q : CPoint) = Q := zero_add Q
    rw [hn, e]
    exact hq
  | .some x y h, ⟨a, b, e, ha, hb, hx, hy⟩, .zero, hq =>
    have hn : q = none := hq
    have e' : (.some x y h + .zero : CPoint) = .some x y h := add_zero _
    rw [hn, e, e']
    exact ⟨a, b, rfl, ha, hb, hx, hy⟩
  | .some x1 y1 h1, ⟨a, b, e, ha, hb, hx1, hy1⟩, .some x2 y2 h2, ⟨c, d, e', hc, hd, hx2, hy2⟩ =>
    rw [e, e']
    rw [addPt]
    have hnegY : (W CA).negY x2 y2 = -y2 := negY_W _ _
    split
    · rename_i hac
      subst hac
      have hxx : x1 = x2 := hx1.symm.trans hx2
      split
      · rename_i hbd
        obtain ⟨hbd, hb0⟩ := hbd
        subst hbd
        have hyy : y1 = y2 := hy1.symm.trans hy2
        have hb0' : (b : Fld) ≠ 0 := cast_ne_zero hb0 hb
        have hne : y1 ≠ (W CA).negY x2 y2 := by
          rw [hnegY, ← hyy, ← hy1]
          intro h0
          have : 2 * (b : Fld) = 0 := by linear_combination h0
          rcases mul_eq_zero.1 this with h | h
          · exact good.two h
          · exact hb0' h
        rw [force_eq]
        refine isPt_third rfl rfl (fun h => hne h.2) hx1 hy1 hx2 ?_
        rw [Affine.slope_of_Y_ne hxx hne, negY_W]
        simp only [cast_mul, cast_add, cast_inv, W_a₁, W_a₂, W_a₄, hx1, hy1, Nat.cast_one]
        rw [div_eq_mul_inv]
        have e1 : y1 - -y1 = y1 + y1 := by ring
        rw [e1]
        congr 1
        push_cast
        ring
      · rename_i hbd
        have hz : y1 = (W CA).negY x2 y2 := by
          rw [hnegY]
          have e1 := (nonsingular_W good x1 y1).1 h1
          have e2 := (nonsingular_W good x2 y2).1 h2
          rw [← hxx, ← e1] at e2
          have h3 : (y1 - y2) * (y1 + y2) = 0 := by linear_combination -e2
          rcases mul_eq_zero.1 h3 with h4 | h4
          · have hyy : y1 = y2 := by linear_combination h4
            have hbd' : b = d := eq_of_cast hb hd (by rw [hy1, hy2, hyy])
            have hb0 : b = 0 := by
              by_contra hb0
              exact hbd ⟨hbd', hb0⟩
            have : y1 = 0 := by rw [← hy1, hb0, Nat.cast_zero]
            rw [← hyy, this, neg_zero]
          · linear_combination h4
        rw [Affine.Point.add_of_Y_eq hxx hz]
        rfl
    · rename_i hac
      have hxx : x1 ≠ x2 := fun h => hac (eq_of_cast ha hc (by rw [hx1, hx2, h]))
      rw [force_eq]
      refine isPt_third rfl rfl (fun h => hxx h.1) hx1 hy1 hx2 ?_
      rw [Affine.slope_of_X_ne hxx]
      simp only [cast_mul, cast_sub, cast_inv, hx1, hy1, hx2, hy2]
      rw [div_eq_mul_inv]

theorem IsPt.mulBits {P R : CPoint} {p r : Pt} (s n : Nat) (hp : IsPt P p) (hr : IsPt R r) :
    IsPt (2 ^ n • R + (s % 2 ^ n) • P) (mulBits s p n r) := by
  induction n generalizing R r with
  | zero =>
    rw [Nat.pow_zero, Nat.mod_one, zero_nsmul, one_nsmul, add_zero]
    exact hr
  | succ n ih =>
    have hmod := mod_two_pow_succ_testBit s n
    rw [Nat.toNat_testBit] at hmod
    unfold XEd.mulBits
    rw [forcePt_eq]
    split
    · rename_i hbit
      rw [forcePt_eq, hmod, hbit]
      have := ih ((hr.add hr).add hp)
      have e : 2 ^ n • (R + R + P) + (s % 2 ^ n) • P = 2 ^ (n + 1) • R + (1 * 2 ^ n + s % 2 ^ n) • P := by
        rw [pow_succ, Nat.one_mul, add_nsmul, mul_nsmul, nsmul_add, nsmul_add, two_nsmul]
        abel
      rw [← e]
      exact this
    · rename_i hbit
      have hbit' : s / 2 ^ n % 2 = 0 := by omega
      rw [hmod, hbit', Nat.zero_mul, Nat.zero_add]
      have := ih (hr.add hr)
      have e : 2 ^ n • (R + R) = 2 ^ (n + 1) • R := by rw [pow_succ', mul_nsmul, two_nsmul]
      rw [← e]
      exact this

/-- Multiples of points are computed correctly. -/
theorem IsPt.mulPt {P : CPoint} {p : Pt} (s : Nat) (hs : s < 2 ^ 256) (hp : IsPt P p) : IsPt (s • P) (mulPt s p) := by
  have key : ∀ n, s < 2 ^ n → IsPt (s • P) (XEd.mulBits s p n none) := by
    intro n hn
    have := IsPt.mulBits s n hp (show IsPt (0 : CPoint) none from rfl)
    rwa [nsmul_zero, zero_add, Nat.mod_eq_of_lt hn] at this
  exact key _ hs

theorem base_on_curve :
    mul 43114425171068552920764898935933967039370386198203806730763910166200978582548
      43114425171068552920764898935933967039370386198203806730763910166200978582548 =
    (9 ^ 3 + 486662 * 9 ^ 2 + 9) % P25519 := by decide +kernel

theorem base_nonsingular : (W CA).Nonsingular ((9 : Nat) : Fld)
    ((43114425171068552920764898935933967039370386198203806730763910166200978582548 : Nat) : Fld) := by
  rw [nonsingular_W good]
  have h := congrArg (Nat.cast (R := Fld)) base_on_curve
  rw [cast_mul, ZMod.natCast_mod] at h
  rw [sq, h]
  push_cast
  ring

end XEd

open XEd

/-- The base point of RFC 7748. -/
def basePt : CPoint := .some _ _ base_nonsingular

theorem basePt_isPt : IsPt basePt base := isPt_some base_nonsingular (by decide +kernel) (by decide +kernel)

/-- The multiple of the base point by its order, computed. -/
theorem base_order_computed : mulPt Q25519 base = none := by decide +kernel

theorem Q25519_lt : Q25519 < 2 ^ 256 := by decide +kernel

theorem smul_base_of_computed (n : Nat) (hn : n < 2 ^ 256) (h : mulPt n base = none) : n • basePt = 0 := by
  have h' := IsPt.mulPt n hn basePt_isPt
  rw [h] at h'
  exact isPt_none h'

theorem order_smul_base : Q25519 • basePt = 0 := smul_base_of_computed _ Q25519_lt base_order_computed

theorem basePt_ne_zero : basePt ≠ 0 := Affine.Point.some_ne_zero _

theorem order_base : addOrderOf basePt = Q25519 :=
  have : Fact (Nat.Prime Q25519) := ⟨prime_Q25519⟩
  addOrderOf_eq_prime order_smul_base basePt_ne_zero

theorem smul_base_eq_zero (n : Nat) : n • basePt = 0 ↔ Q25519 ∣ n := by
  rw [← order_base]
  exact addOrderOf_dvd_iff_nsmul_eq_zero.symm

/-- No clamped number is a multiple of the order of the base point. -/
theorem clamp_not_dvd (n : Nat) : ¬ Q25519 ∣ X25519.clamp n := by
  intro h
  have h1 : n % 2 ^ 254 < 2 ^ 254 := Nat.mod_lt _ (by norm_num)
  have h2 := Nat.div_mul_le_self (n % 2 ^ 254) 8
  have e : X25519.clamp n = 8 * (2 ^ 251 + n % 2 ^ 254 / 8) := by
    unfold X25519.clamp
    ring
  rw [e] at h
  rcases (Nat.Prime.dvd_mul prime_Q25519).1 h with h3 | h3
  · exact absurd (Nat.le_of_dvd (by norm_num) h3) (by decide +kernel)
  · have h4 := Nat.le_of_dvd (by positivity) h3
    have h5 : 2 ^ 252 < Q25519 := by decide +kernel
    omega

/-- A multiple of the base point that is not the neutral element is not the point `(0, 0)` either: it has a first coordinate other than
0, and a second. -/
theorem smul_base_some (n : Nat) (h : ¬ Q25519 ∣ n) : ∃ x y hp, n • basePt = .some x y hp ∧ x ≠ 0 ∧ y ≠ 0 := by
  match hP : n • basePt with
  | .zero => exact absurd ((smul_base_eq_zero n).1 hP) h
  | .some x y hp =>
    have hy : y ≠ 0 := by
      intro hy
      have h2 : (2 * n) • basePt = 0 := by
        rw [two_mul, add_nsmul, hP]
        exact double_zero hp hy
      rcases (Nat.Prime.dvd_mul prime_Q25519).1 ((smul_base_eq_zero _).1 h2) with h3 | h3
      · exact absurd (Nat.le_of_dvd (by norm_num) h3) (by decide +kernel)
      · exact h h3
    refine ⟨x, y, hp, rfl, ?_, hy⟩
    intro hx
    have := (nonsingular_W good x y).1 hp
    rw [hx] at this
    apply hy
    have h0 : y ^ 2 = 0 := by rw [this]; ring
    exact pow_eq_zero_iff (by norm_num) |>.1 h0

end Axolotl.Real
