import Mathlib.AlgebraicGeometry.EllipticCurve.Affine.Point
import Mathlib.Tactic.LinearCombination
import Mathlib.Tactic.FieldSimp

/-!
# The Montgomery ladder computes multiples of points

Over any field of characteristic other than two: the points of `y² = x³ + A x² + x` with the group law of Mathlib, and the two formulas
of the ladder (RFC 7748, 5) on quotients `X / Z` that stand for the first coordinate.
-/

set_option linter.unusedSectionVars false

namespace Axolotl.Real.Mont

open WeierstrassCurve

variable {F : Type} [Field F] [DecidableEq F]

/-- `y² = x³ + A x² + x` -/
def W (A : F) : Affine F := ⟨0, A, 0, 1, 0⟩

@[simp] theorem W_a₁ (A : F) : (W A).a₁ = 0 := rfl
@[simp] theorem W_a₂ (A : F) : (W A).a₂ = A := rfl
@[simp] theorem W_a₃ (A : F) : (W A).a₃ = 0 := rfl
@[simp] theorem W_a₄ (A : F) : (W A).a₄ = 1 := rfl
@[simp] theorem W_a₆ (A : F) : (W A).a₆ = 0 := rfl

/-- What the formulas need of the field and the curve. -/
structure Good (A : F) : Prop where
  two : (2 : F) ≠ 0
  plus : A + 2 ≠ 0
  minus : A - 2 ≠ 0

variable {A : F}

theorem equation_W (x y : F) : (W A).Equation x y ↔ y ^ 2 = x ^ 3 + A * x ^ 2 + x := by
  rw [Affine.equation_iff]
  simp

omit [DecidableEq F] in
/-- The first coordinate of a point of order two is neither 1 nor -1. -/
theorem Good.sq_ne_one (g : Good A) (x : F) (h : x ^ 3 + A * x ^ 2 + x = 0) : x ^ 2 - 1 ≠ 0 := by
  intro h1
  have h2 : (x - 1) * (x + 1) = 0 := by linear_combination h1
  rcases mul_eq_zero.1 h2 with h3 | h3
  · have : x = 1 := by linear_combination h3
    subst this
    exact g.plus (by linear_combination h)
  · have : x = -1 := by linear_combination h3
    subst this
    exact g.minus (by linear_combination h)

theorem nonsingular_W (g : Good A) (x y : F) : (W A).Nonsingular x y ↔ y ^ 2 = x ^ 3 + A * x ^ 2 + x := by
  rw [Affine.nonsingular_iff, equation_W]
  simp only [W_a₁, W_a₂, W_a₃, W_a₄, zero_mul, sub_zero]
  constructor
  · exact fun h => h.1
  · intro h
    refine ⟨h, ?_⟩
    by_cases hy : y = 0
    · left
      intro hd
      subst hy
      have h0 : x ^ 3 + A * x ^ 2 + x = 0 := by linear_combination -h
      have h1 : x * (x ^ 2 - 1) = 0 := by linear_combination -2 * h0 - x * hd
      rcases mul_eq_zero.1 h1 with h2 | h2
      · subst h2
        simp at hd
      · exact g.sq_ne_one x h0 h2
    · right
      intro he
      have : 2 * y = 0 := by linear_combination he
      rcases mul_eq_zero.1 this with h2 | h2
      · exact g.two h2
      · exact hy h2

/-- `X / Z` is the first coordinate of the point, or the point is the neutral element and `Z` is zero. -/
def Rep : (W A).Point → F → F → Prop
  | .zero, X, Z => Z = 0 ∧ X ≠ 0
  | .some x _ _, X, Z => Z ≠ 0 ∧ X = x * Z

theorem negY_W (x y : F) : (W A).negY x y = -y := by simp [Affine.negY]

/-- The double of a point of order two. -/
theorem double_zero {x y : F} (h : (W A).Nonsingular x y) (hy : y = 0) :
    (.some x y h : (W A).Point) + .some x y h = 0 :=
  Affine.Point.add_self_of_Y_eq (by simp [hy])

/-- The double of a point that is not of order two. -/
theorem double_some (g : Good A) {x y : F} (h : (W A).Nonsingular x y) (hy : y ≠ 0) :
    ∃ x' y' h', (.some x y h : (W A).Point) + .some x y h = .some x' y' h' ∧ 4 * y ^ 2 * x' = (x ^ 2 - 1) ^ 2 := by
  have hn : y ≠ (W A).negY x y := by
    rw [negY_W]
    intro he
    have : 2 * y = 0 := by linear_combination he
    rcases mul_eq_zero.1 this with h2 | h2
    · exact g.two h2
    · exact hy h2
  refine ⟨_, _, _, Affine.Point.add_self_of_Y_ne hn, ?_⟩
  have he := (nonsingular_W g x y).1 h
  rw [Affine.slope_of_Y_ne rfl hn, negY_W]
  simp only [Affine.addX, W_a₁, W_a₂, W_a₄]
  have h2 : y - -y ≠ 0 := by
    intro h0
    have : 2 * y = 0 := by linear_combination h0
    rcases mul_eq_zero.1 this with h2 | h2
    · exact g.two h2
    · exact hy h2
  have h4 : y - -y = 2 * y := by ring
  rw [h4] at h2 ⊢
  have hl : ∀ l : F, l * (2 * y) = 3 * x ^ 2 + 2 * A * x + 1 → 4 * y ^ 2 * (l ^ 2 - A - 2 * x) = (x ^ 2 - 1) ^ 2 := by
    intro l hl
    linear_combination (l * (2 * y) + (3 * x ^ 2 + 2 * A * x + 1)) * hl - 4 * (A + 2 * x) * he
  have := hl ((3 * x ^ 2 + 2 * A * x + 1 - 0 * y) / (2 * y)) (by rw [div_mul_cancel₀ _ h2]; ring)
  linear_combination this

/-- Doubling: RFC 7748 computes `AA * BB` and `E * (AA + 121665 * E)`, which are these. -/
theorem Rep.double (g : Good A) {P : (W A).Point} {X Z : F} (h : Rep P X Z) :
    Rep (P + P) ((X ^ 2 - Z ^ 2) ^ 2) (4 * X * Z * (X ^ 2 + A * X * Z + Z ^ 2)) := by
  match P, h with
  | .zero, ⟨hz, hx⟩ =>
    subst hz
    have e : (.zero + .zero : (W A).Point) = .zero := add_zero (0 : (W A).Point)
    rw [e]
    refine ⟨by ring, ?_⟩
    have : (X ^ 2 - 0 ^ 2) ^ 2 = X ^ 4 := by ring
    rw [this]
    exact pow_ne_zero _ hx
  | .some x y hp, ⟨hz, hx⟩ =>
    subst hx
    have he := (nonsingular_W g x y).1 hp
    by_cases hy : y = 0
    · rw [double_zero hp hy]
      subst hy
      have h0 : x ^ 3 + A * x ^ 2 + x = 0 := by linear_combination -he
      refine ⟨by linear_combination 4 * Z ^ 4 * h0, ?_⟩
      have e : ((x * Z) ^ 2 - Z ^ 2) ^ 2 = (Z ^ 2 * (x ^ 2 - 1)) ^ 2 := by ring
      rw [e]
      exact pow_ne_zero _ (mul_ne_zero (pow_ne_zero _ hz) (g.sq_ne_one x h0))
    · obtain ⟨x', y', h', e, hx'⟩ := double_some g hp hy
      rw [e]
      have e4 : 4 * (x * Z) * Z * ((x * Z) ^ 2 + A * (x * Z) * Z + Z ^ 2) = 2 * 2 * y ^ 2 * Z ^ 4 := by
        linear_combination -4 * Z ^ 4 * he
      refine ⟨?_, ?_⟩
      · rw [e4]
        exact mul_ne_zero (mul_ne_zero (mul_ne_zero g.two g.two) (pow_ne_zero _ hy)) (pow_ne_zero _ hz)
      · rw [e4]
        linear_combination -Z ^ 4 * hx'

/-- The first coordinates of the sum and the difference of two points with different first coordinates. -/
theorem sum_diff (g : Good A) {x1 y1 x2 y2 : F} (h1 : (W A).Nonsingular x1 y1) (h2 : (W A).Nonsingular x2 y2) (hx : x1 ≠ x2) :
    ∃ xs ys hs xd yd hd, (.some x1 y1 h1 : (W A).Point) + .some x2 y2 h2 = .some xs ys hs ∧
      (.some x2 y2 h2 : (W A).Point) - .some x1 y1 h1 = .some xd yd hd ∧
      xs * xd * (x1 - x2) ^ 2 = (x1 * x2 - 1) ^ 2 := by
  have e1 := (nonsingular_W g x1 y1).1 h1
  have e2 := (nonsingular_W g x2 y2).1 h2
  rw [sub_eq_add_neg, Affine.Point.neg_some]
  refine ⟨_, _, _, _, _, _, Affine.Point.add_of_X_ne hx, Affine.Point.add_of_X_ne hx.symm, ?_⟩
  rw [Affine.slope_of_X_ne hx, Affine.slope_of_X_ne hx.symm, negY_W]
  simp only [Affine.addX, W_a₁, W_a₂]
  have hd : x1 - x2 ≠ 0 := sub_ne_zero.2 hx
  have key : ∀ l m : F, l * (x1 - x2) = y1 - y2 → m * (x1 - x2) = -(y1 + y2) →
      (l ^ 2 - A - x1 - x2) * (m ^ 2 - A - x1 - x2) * (x1 - x2) ^ 2 = (x1 * x2 - 1) ^ 2 := by
    intro l m hl hm
    have hl2 : l ^ 2 * (x1 - x2) ^ 2 = (y1 - y2) ^ 2 := by rw [← mul_pow, hl]
    have hm2 : m ^ 2 * (x1 - x2) ^ 2 = (y1 + y2) ^ 2 := by rw [← mul_pow, hm, neg_sq]
    have hD : (x1 - x2) ^ 2 ≠ 0 := pow_ne_zero _ hd
    apply mul_left_cancel₀ hD
    have : (x1 - x2) ^ 2 * ((l ^ 2 - A - x1 - x2) * (m ^ 2 - A - x1 - x2) * (x1 - x2) ^ 2) =
        ((y1 - y2) ^ 2 - (A + x1 + x2) * (x1 - x2) ^ 2) * ((y1 + y2) ^ 2 - (A + x1 + x2) * (x1 - x2) ^ 2) := by
      rw [← hl2, ← hm2]
      ring
    rw [this]
    have p1 : ((y1 - y2) ^ 2 - (A + x1 + x2) * (x1 - x2) ^ 2) * ((y1 + y2) ^ 2 - (A + x1 + x2) * (x1 - x2) ^ 2) =
        (y1 ^ 2 - y2 ^ 2) ^ 2 - 2 * (A + x1 + x2) * (x1 - x2) ^ 2 * (y1 ^ 2 + y2 ^ 2) + (A + x1 + x2) ^ 2 * (x1 - x2) ^ 4 := by
      ring
    rw [p1, e1, e2]
    ring
  have := key ((y1 - y2) / (x1 - x2)) ((y2 - -y1) / (x2 - x1)) (div_mul_cancel₀ _ hd) (by
    have : x2 - x1 ≠ 0 := sub_ne_zero.2 hx.symm
    field_simp
    ring)
  linear_combination this

/-- Differential addition: the points are `P` and `P + B`, where `B` has first coordinate `x1`; RFC 7748 computes four times these. -/
theorem Rep.add (g : Good A) {P : (W A).Point} {x1 y1 : F} (hB : (W A).Nonsingular x1 y1) (hx1 : x1 ≠ 0) {X2 Z2 X3 Z3 : F}
    (h2 : Rep P X2 Z2) (h3 : Rep (P + .some x1 y1 hB) X3 Z3) :
    Rep (P + (P + .some x1 y1 hB)) (4 * (X2 * X3 - Z2 * Z3) ^ 2) (4 * x1 * (X2 * Z3 - X3 * Z2) ^ 2) := by
  have h4 : (4 : F) ≠ 0 := by
    have : (4 : F) = 2 * 2 := by norm_num
    rw [this]
    exact mul_ne_zero g.two g.two
  generalize hQ : P + .some x1 y1 hB = Q at h3 ⊢
  match P, h2, Q, h3 with
  | .zero, ⟨hz, hx⟩, Q, h3 =>
    have e : Q = .some x1 y1 hB := by rw [← hQ]; exact zero_add _
    subst e
    obtain ⟨hz3, hx3⟩ := h3
    subst hz hx3
    have e : (.zero + .some x1 y1 hB : (W A).Point) = .some x1 y1 hB := zero_add _
    rw [e]
    refine ⟨?_, by ring⟩
    refine mul_ne_zero (mul_ne_zero h4 hx1) (pow_ne_zero _ ?_)
    have : X2 * Z3 - x1 * Z3 * 0 = X2 * Z3 := by ring
    rw [this]
    exact mul_ne_zero hx hz3
  | .some x y hp, ⟨hz, hx⟩, .zero, ⟨hz3, hx3⟩ =>
    subst hz3 hx
    have e : (.some x y hp + .zero : (W A).Point) = .some x y hp := add_zero _
    rw [e]
    have hP : (.some x y hp : (W A).Point) = -.some x1 y1 hB := eq_neg_of_add_eq_zero_left hQ
    rw [Affine.Point.neg_some] at hP
    have hxx : x = x1 := (Affine.Point.some.inj hP).1
    subst hxx
    refine ⟨?_, by ring⟩
    refine mul_ne_zero (mul_ne_zero h4 hx1) (pow_ne_zero _ ?_)
    have : x * Z2 * 0 - X3 * Z2 = -(X3 * Z2) := by ring
    rw [this]
    exact neg_ne_zero.2 (mul_ne_zero hx3 hz)
  | .some x2 y2 hp, ⟨hz, hx⟩, .some x3 y3 hq, ⟨hz3, hx3⟩ =>
    subst hx hx3
    have hB' : (.some x1 y1 hB : (W A).Point) = .some x3 y3 hq - .some x2 y2 hp := by rw [← hQ]; abel
    by_cases hxx : x2 = x3
    · rcases Affine.Point.X_eq_iff (h₁ := hp) (h₂ := hq) |>.1 hxx with e | e
      · exfalso
        rw [← e, sub_self] at hB'
        exact Affine.Point.some_ne_zero _ hB'
      · have hzero : (.some x2 y2 hp : (W A).Point) + .some x3 y3 hq = 0 := by rw [e]; abel
        rw [hzero]
        subst hxx
        refine ⟨by ring, ?_⟩
        have hq' : (.some x2 y3 hq : (W A).Point) = -.some x2 y2 hp := by rw [e]; abel
        have hBd : (.some x1 y1 hB : (W A).Point) = -(.some x2 y2 hp + .some x2 y2 hp) := by rw [hB', hq']; abel
        have hy : y2 ≠ 0 := by
          intro hy
          rw [double_zero hp hy, neg_zero] at hBd
          exact Affine.Point.some_ne_zero _ hBd
        obtain ⟨x', y', h', ed, hx'⟩ := double_some g hp hy
        rw [ed, Affine.Point.neg_some] at hBd
        have hxe : x1 = x' := (Affine.Point.some.inj hBd).1
        subst hxe
        have e : 4 * (x2 * Z2 * (x2 * Z3) - Z2 * Z3) ^ 2 = 4 * (x2 ^ 2 - 1) ^ 2 * (Z2 * Z3) ^ 2 := by ring
        rw [e, ← hx']
        exact mul_ne_zero (mul_ne_zero h4 (mul_ne_zero (mul_ne_zero h4 (pow_ne_zero _ hy)) hx1))
          (pow_ne_zero _ (mul_ne_zero hz hz3))
    · obtain ⟨xs, ys, hs, xd, yd, hd, es, ed, h⟩ := sum_diff g hp hq hxx
      rw [es]
      rw [ed] at hB'
      have hxe : x1 = xd := (Affine.Point.some.inj hB').1
      subst hxe
      refine ⟨?_, ?_⟩
      · have e : x2 * Z2 * Z3 - x3 * Z3 * Z2 = (x2 - x3) * (Z2 * Z3) := by ring
        rw [e]
        exact mul_ne_zero (mul_ne_zero h4 hx1) (pow_ne_zero _ (mul_ne_zero (sub_ne_zero.2 hxx) (mul_ne_zero hz hz3)))
      · linear_combination -4 * (Z2 * Z3) ^ 2 * h

end Axolotl.Real.Mont
