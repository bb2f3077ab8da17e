import Verif.Real.Points

/-!
# Agreement and signatures of the actual primitives

Both sides of an X25519 agreement compute the same bytes, and a signature made with a generated private key verifies under the public
key that belongs to it.
-/

namespace Axolotl.Real

open WeierstrassCurve Mont Fp XEd

theorem beNat_beBytes (n x acc : Nat) : beNat (beBytes n x) acc = acc * 256 ^ n + x % 256 ^ n := by
  induction n generalizing acc with
  | zero => simp [beBytes, beNat, Nat.mod_one]
  | succ n ih =>
    rw [beBytes, beNat, force_eq, ih, UInt8.toNat_ofNat', Nat.shiftRight_eq_div_pow]
    have h : x % 256 ^ (n + 1) = x % 256 ^ n + 256 ^ n * (x / 256 ^ n % 256) := by
      rw [pow_succ, Nat.mod_mul]
    rw [h, pow_mul]
    norm_num
    ring

theorem leNat_leBytes (n x : Nat) (h : x < 256 ^ n) : leNat (leBytes n x) = x := by
  rw [leNat, leBytes, List.reverse_reverse, beNat_beBytes, Nat.zero_mul, Nat.zero_add, Nat.mod_eq_of_lt h]

theorem leNat_leBytes_32 (x : Nat) (h : x < 2 ^ 256) : leNat (leBytes 32 x) = x :=
  leNat_leBytes 32 x (lt_of_lt_of_le h (by norm_num))

namespace X25519

/-- The public key. -/
theorem scalarMul_base (s : Nat) : ((scalarMul s 9 : Nat) : Fld) = xOf ((s % 2 ^ 256) • basePt) :=
  scalarMul_eq s 9 (by decide +kernel) _ base_nonsingular (cast_ne_zero (by norm_num) (by decide +kernel))

/-- The public key is the first coordinate of a point of the group of the base point, unless the scalar is a multiple of its order. -/
theorem scalarMul_base_some (s : Nat) (hs : ¬ Q25519 ∣ s % 2 ^ 256) : ∃ v, ∃ h : (W CA).Nonsingular ((scalarMul s 9 : Nat) : Fld) v,
    (s % 2 ^ 256) • basePt = .some _ v h ∧ ((scalarMul s 9 : Nat) : Fld) ≠ 0 ∧ v ≠ 0 := by
  obtain ⟨x, y, hp, e, hx, hy⟩ := smul_base_some (s % 2 ^ 256) hs
  have hs := scalarMul_base s
  rw [e] at hs
  have hx' : x = ((scalarMul s 9 : Nat) : Fld) := hs.symm
  subst hx'
  exact ⟨y, hp, e, hx, hy⟩

/-- The shared secret is the first coordinate of the product of the two scalars and the base point. -/
theorem scalarMul_twice (a b : Nat) :
    ((scalarMul a (scalarMul b 9) : Nat) : Fld) = xOf (((a % 2 ^ 256) * (b % 2 ^ 256)) • basePt) := by
  by_cases hb : Q25519 ∣ b % 2 ^ 256
  · have h0 : scalarMul b 9 = 0 := by
      apply eq_of_cast (scalarMul_lt _ _) P25519_pos
      rw [scalarMul_base, (smul_base_eq_zero _).2 hb, Nat.cast_zero]
      rfl
    rw [h0, scalarMul_zero, (smul_base_eq_zero _).2 (Dvd.dvd.mul_left hb _), Nat.cast_zero]
    rfl
  · obtain ⟨w, hw, e', h0', _⟩ := scalarMul_base_some b hb
    rw [scalarMul_eq a _ (scalarMul_lt _ _) w hw h0', ← e', ← mul_nsmul']

theorem scalarMul_comm (a b : Nat) : scalarMul a (scalarMul b 9) = scalarMul b (scalarMul a 9) := by
  apply eq_of_cast (scalarMul_lt _ _) (scalarMul_lt _ _)
  rw [scalarMul_twice, scalarMul_twice, Nat.mul_comm]

theorem leNat_genPub (k : Bytes) : leNat (genPub k) = scalarMul (leNat k) 9 := by
  unfold genPub donna
  rw [force_eq, leNat_leBytes_32 9 (by norm_num)]
  exact leNat_leBytes_32 _ (lt_trans (scalarMul_lt _ _) (lt_trans P25519_lt top255_lt))

theorem genPub_length (k : Bytes) : (genPub k).length = 32 := by
  unfold genPub donna
  rw [force_eq]
  exact leBytes_length _ _

theorem genPriv_length (r : Bytes) : (genPriv r).length = 32 := by
  unfold genPriv
  rw [force_eq]
  exact leBytes_length _ _

theorem leNat_genPriv (r : Bytes) : leNat (genPriv r) = clamp (leNat r) := by
  unfold genPriv
  rw [force_eq]
  exact leNat_leBytes_32 _ (lt_trans (clamp_lt _) (by norm_num))

/-- Both sides get the same secret. -/
theorem dh_comm (a b : Bytes) (ha : a.length = 32) (hb : b.length = 32) :
    ∃ s, dh a (genPub b) = some s ∧ dh b (genPub a) = some s := by
  refine ⟨donna a (genPub b), ?_, ?_⟩
  · rw [dh, if_pos ⟨ha, genPub_length _⟩]
  · rw [dh, if_pos ⟨hb, genPub_length _⟩]
    unfold donna
    rw [force_eq, force_eq, leNat_genPub, leNat_genPub, scalarMul_comm]

end X25519

namespace XEd

theorem minus_one_not_square : pow 486660 ((P25519 - 1) / 2) ≠ 1 := by decide +kernel

/-- No point of the curve has first coordinate -1. -/
theorem x_ne_minus_one {x y : Fld} (h : (W CA).Nonsingular x y) : x + 1 ≠ 0 := by
  intro h1
  have hx : x = -1 := by linear_combination h1
  have e := (nonsingular_W good x y).1 h
  rw [hx] at e
  have e2 : ((486660 : Nat) : Fld) = y ^ 2 := by
    rw [e]
    push_cast
    ring
  have hy : y ≠ 0 := by
    intro hy
    rw [hy] at e2
    exact cast_ne_zero (n := 486660) (by norm_num) (by decide +kernel) (by rw [e2]; ring)
  apply minus_one_not_square
  apply eq_of_cast
  · rw [Fp.pow, powBits_eq]
    exact powMod_lt _ _ _ _ _ P25519_pos prime_P25519.one_lt
  · exact prime_P25519.one_lt
  · rw [cast_pow _ _ (by decide +kernel), e2, ← pow_mul]
    have : 2 * ((P25519 - 1) / 2) = P25519 - 1 := by decide +kernel
    rw [this, ZMod.pow_card_sub_one_eq_one hy, Nat.cast_one]

theorem sqrtD_ne_zero : (sqrtD : Fld) ≠ 0 := cast_ne_zero (by decide +kernel) (by decide +kernel)

theorem edYofU_lt (u : Nat) : edYofU u < P25519 := mul_lt _ _

theorem edX_lt (p : Pt) : edX p < P25519 := by
  match p with
  | none => exact P25519_pos
  | some (u, v) => exact mul_lt _ _

theorem edY_lt (p : Pt) : edY p < P25519 := by
  match p with
  | none => exact prime_P25519.one_lt
  | some (u, v) => exact mul_lt _ _

/-- Reading back the coordinate `y` of a point gives its `u`. -/
theorem u_of_edY {u : Nat} (hu : u < P25519) (h1 : (u : Fld) + 1 ≠ 0) :
    edYofU u ≠ 1 ∧ mul (add 1 (edYofU u)) (inv (sub 1 (edYofU u))) = u := by
  have hy : ((edYofU u : Nat) : Fld) = ((u : Fld) - 1) * ((u : Fld) + 1)⁻¹ := by
    simp only [edYofU, cast_mul, cast_sub, cast_add, cast_inv, Nat.cast_one]
  have h2 : (1 : Fld) - ((u : Fld) - 1) * ((u : Fld) + 1)⁻¹ = 2 * ((u : Fld) + 1)⁻¹ := by
    field_simp
    ring
  constructor
  · intro h
    rw [h, Nat.cast_one] at hy
    rw [← hy, sub_self] at h2
    rcases mul_eq_zero.1 h2.symm with h3 | h3
    · exact good.two h3
    · exact h1 (inv_eq_zero.1 h3)
  · apply eq_of_cast (mul_lt _ _) hu
    simp only [cast_mul, cast_sub, cast_add, cast_inv, Nat.cast_one, hy]
    rw [h2]
    have := good.two
    field_simp
    ring

/-- A number below the prime other than 0 and its negative differ in the lowest bit. -/
theorem parity_neg {a b : Nat} (ha : a < P25519) (hb : b < P25519) (h0 : (a : Fld) ≠ 0) (h : (b : Fld) = -(a : Fld)) :
    a % 2 ≠ b % 2 := by
  have hs : ((a + b : Nat) : Fld) = 0 := by rw [Nat.cast_add, h, add_neg_cancel]
  have hd := (ZMod.natCast_eq_zero_iff (a + b) P25519).1 hs
  have ha0 : a ≠ 0 := by
    intro e
    exact h0 (by rw [e, Nat.cast_zero])
  obtain ⟨k, hk⟩ := hd
  have hk1 : k = 1 := by
    have h1 : P25519 * k < P25519 * 2 := by omega
    have h2 : k < 2 := Nat.lt_of_mul_lt_mul_left h1
    have h3 : k ≠ 0 := by
      rintro rfl
      omega
    omega
  rw [hk1, Nat.mul_one] at hk
  have hodd : P25519 % 2 = 1 := by decide +kernel
  omega

/-- The point is read back from its `y` and the lowest bit of its `x`. -/
theorem decode_point {u v : Nat} (hu : u < P25519) (hv : v < P25519) (h : (W CA).Nonsingular (u : Fld) (v : Fld))
    (hu0 : (u : Fld) ≠ 0) (hv0 : (v : Fld) ≠ 0) :
    decode (edYofU u) (edX (some (u, v)) % 2) = some (some (u, v)) := by
  obtain ⟨hy1, hyu⟩ := u_of_edY hu (x_ne_minus_one h)
  have e := (nonsingular_W good _ _).1 h
  unfold decode
  rw [if_neg hy1, force_eq, hyu]
  have hf : ((mul u (add (mul u (add u 486662)) 1) : Nat) : Fld) = (v : Fld) ^ 2 := by
    rw [e]
    simp only [cast_mul, cast_add, Nat.cast_one]
    ring
  obtain ⟨r, hr⟩ := sqrt_complete _ v (mul_lt _ _) hf hv0
  rw [hr]
  have hr2 : (r : Fld) ^ 2 = (v : Fld) ^ 2 := by
    rw [← hf, ← sqrt_sound hr, cast_mul]
    ring
  have hlt := sqrt_lt hr
  have hx : ∀ w : Nat, ((edX (some (u, w)) : Nat) : Fld) = (sqrtD : Fld) * u * (w : Fld)⁻¹ := by
    intro w
    simp only [edX, cast_mul, cast_inv]
  have h2 : ((r : Fld) - v) * (r + v) = 0 := by linear_combination hr2
  simp only
  rcases mul_eq_zero.1 h2 with h3 | h3
  · have : r = v := eq_of_cast hlt hv (by linear_combination h3)
    subst this
    rw [if_pos rfl]
  · have hrv : (r : Fld) = -(v : Fld) := by linear_combination h3
    have hne : edX (some (u, v)) % 2 ≠ edX (some (u, r)) % 2 := by
      apply parity_neg (edX_lt _) (edX_lt _)
      · rw [hx]
        exact mul_ne_zero (mul_ne_zero sqrtD_ne_zero hu0) (inv_ne_zero hv0)
      · rw [hx, hx, hrv, inv_neg]
        ring
    rw [if_neg fun h => hne h.symm, negPt]
    have : sub 0 r = v := by
      apply eq_of_cast (sub_lt _ _) hv
      rw [cast_sub, Nat.cast_zero, hrv]
      ring
    rw [this]

theorem top255_pos : 0 < top255 := by decide +kernel

theorem encode_eq (p : Pt) : encode p = edY p + edX p % 2 * top255 := by
  unfold encode
  rw [force_eq, force_eq]

theorem encode_lt (p : Pt) : encode p < 2 ^ 256 := by
  rw [encode_eq]
  have h1 := lt_trans (edY_lt p) P25519_lt
  have h2 : edX p % 2 < 2 := Nat.mod_lt _ (by norm_num)
  have h3 : (2 : Nat) ^ 256 = 2 * top255 := by decide +kernel
  generalize top255 = t at *
  generalize edX p % 2 = b at *
  have h4 : b = 0 ∨ b = 1 := by omega
  rcases h4 with h4 | h4 <;> subst h4 <;> omega

theorem encode_div (p : Pt) : encode p / top255 = edX p % 2 := by
  rw [encode_eq, Nat.add_mul_div_right _ _ top255_pos, Nat.div_eq_of_lt (lt_trans (edY_lt p) P25519_lt), Nat.zero_add]

theorem hashScalar_lt (m : Bytes) : hashScalar m < Q25519 := Nat.mod_lt _ prime_Q25519.pos

theorem Q25519_lt_253 : 4 * Q25519 < top255 := by decide +kernel

/-- The equation behind the signatures. -/
theorem sign_equation (h a r : Nat) :
    ((h * a + r) % Q25519) • basePt + -(h • (a • basePt)) = r • basePt := by
  have e : ((h * a + r) % Q25519) • basePt = (h * a + r) • basePt := by
    conv_rhs => rw [← Nat.div_add_mod (h * a + r) Q25519]
    rw [add_nsmul, mul_comm Q25519, mul_nsmul', order_smul_base, nsmul_zero, zero_add]
  rw [e, add_nsmul, mul_nsmul']
  abel

/-- The point whose multiple is the public key, in numbers. -/
theorem key_point (k : Nat) (hlt : k < 2 ^ 256) (hq : ¬ Q25519 ∣ k) : ∃ v : Nat, mulPt k base = some (X25519.scalarMul k 9, v) ∧
    v < P25519 ∧ ∃ h : (W CA).Nonsingular ((X25519.scalarMul k 9 : Nat) : Fld) (v : Fld),
      k • basePt = .some _ _ h ∧ ((X25519.scalarMul k 9 : Nat) : Fld) ≠ 0 ∧ (v : Fld) ≠ 0 := by
  have hmod : k % 2 ^ 256 = k := Nat.mod_eq_of_lt hlt
  obtain ⟨y, hp, e, hu0, hy0⟩ := X25519.scalarMul_base_some k (by rw [hmod]; exact hq)
  rw [hmod] at e
  have hpt := IsPt.mulPt k hlt basePt_isPt
  rw [e] at hpt
  obtain ⟨a, b, em, ha, hb, hxa, hyb⟩ := hpt
  have : a = X25519.scalarMul k 9 := eq_of_cast ha (X25519.scalarMul_lt _ _) hxa
  subst this
  subst hyb
  exact ⟨b, em, hb, hp, e, hu0, hy0⟩

/-- A signature made with a private key that is not a multiple of the order of the group is accepted under its public key. -/
theorem verify_sign_of (rand priv msg : Bytes) (hlt : leNat priv < 2 ^ 256) (hq : ¬ Q25519 ∣ leNat priv) :
    verify (X25519.genPub priv) msg (sign rand priv msg) = true := by
  obtain ⟨v, hA, hv, hns, eA, hu0, hv0⟩ := key_point (leNat priv) hlt hq
  unfold sign verify
  simp only [force_eq, forcePt_eq]
  generalize hka : leNat priv = a at *
  generalize hr : hashScalar (noncePrefix ++ priv ++ msg ++ rand) = r
  have hrlt : r < Q25519 := hr ▸ hashScalar_lt _
  generalize hEA : encode (mulPt a base) = EA
  generalize hER : encode (mulPt r base) = ER
  generalize hh : hashScalar (leBytes 32 ER ++ leBytes 32 EA ++ msg) = h
  have hhlt : h < Q25519 := hh ▸ hashScalar_lt _
  have hl : (leBytes 32 ER).length = 32 := leBytes_length _ _
  rw [List.take_left' hl, List.drop_left' hl]
  have hsgn : EA / top255 = edX (some (X25519.scalarMul a 9, v)) % 2 := by rw [← hEA, encode_div, hA]
  have hsgn2 : EA / top255 < 2 := by
    rw [hsgn]
    exact Nat.mod_lt _ (by norm_num)
  have hS : 4 * ((h * a + r) % Q25519) < top255 := by
    have := Nat.mod_lt (h * a + r) prime_Q25519.pos
    have := Q25519_lt_253
    omega
  generalize hSs : (h * a + r) % Q25519 = S at *
  have hSlt : S + EA / top255 * top255 < 2 ^ 256 := by
    have h3 : (2 : Nat) ^ 256 = 2 * top255 := by decide +kernel
    rw [h3]
    generalize EA / top255 = b at *
    generalize top255 = t at *
    have h5 : b = 0 ∨ b = 1 := by omega
    rcases h5 with h5 | h5 <;> subst h5 <;> omega
  have hS255 : S < top255 := by omega
  rw [leNat_leBytes_32 _ hSlt, Nat.add_mul_div_right _ _ top255_pos, Nat.div_eq_of_lt hS255, Nat.zero_add,
    Nat.add_mul_mod_self_right, Nat.mod_eq_of_lt hS255, if_neg (by omega), X25519.leNat_genPub, hka]
  have hulow : X25519.scalarMul a 9 % top255 % P25519 = X25519.scalarMul a 9 := by
    rw [Nat.mod_eq_of_lt (lt_trans (X25519.scalarMul_lt _ _) P25519_lt), Nat.mod_eq_of_lt (X25519.scalarMul_lt _ _)]
  rw [hulow, hsgn, decode_point (X25519.scalarMul_lt _ _) hv hns hu0 hv0]
  have hEA' : edYofU (X25519.scalarMul a 9) + edX (some (X25519.scalarMul a 9, v)) % 2 * top255 = EA := by
    rw [← hEA, encode_eq, hA, edY]
  simp only
  rw [hEA', hh]
  have hSpt := IsPt.mulPt S (lt_trans hS255 top255_lt) basePt_isPt
  have hApt := IsPt.mulPt h (lt_trans hhlt Q25519_lt)
    (isPt_some hns (X25519.scalarMul_lt _ _) hv)
  have hRpt := IsPt.mulPt r (lt_trans hrlt Q25519_lt) basePt_isPt
  have hsum := hSpt.add hApt.neg
  rw [← hSs, ← eA, sign_equation, hSs] at hsum
  rw [hsum.unique hRpt, hER]
  exact decide_eq_true rfl

/-- A signature made with a generated private key is accepted under its public key. -/
theorem verify_sign (rand seed msg : Bytes) :
    verify (X25519.genPub (X25519.genPriv seed)) msg (sign rand (X25519.genPriv seed) msg) = true := by
  apply verify_sign_of
  · rw [X25519.leNat_genPriv]
    exact lt_trans (X25519.clamp_lt _) (by norm_num)
  · rw [X25519.leNat_genPriv]
    exact clamp_not_dvd _

theorem sign_length (rand priv msg : Bytes) : (sign rand priv msg).length = 64 := by
  unfold sign
  simp only [force_eq, List.length_append, leBytes_length]

end XEd

end Axolotl.Real
