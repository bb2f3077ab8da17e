import Verif.Real.Instance
import Verif.Props.Cipher
import Verif.Props.Sessions
import Verif.Props.Room

/-! # C77, C78: the primitives themselves

Every theorem about `C : Crypto` with `C.Lawful` holds of the reference implementations `real`, because they are lawful (C77).  What the
keys and agreements are is said in terms of the group of points that Mathlib has for an elliptic curve. -/

namespace Axolotl

open Real WeierstrassCurve

namespace Spec

/-- A string of bytes as a number, lowest byte first. -/
def number : Bytes → Nat
  | [] => 0
  | b :: bs => b.toNat + 256 * number bs

/-- The prime of the field. -/
abbrev prime : Nat := 57896044618658097711785492504343953926634992332820282019728792003956564819949

instance : Fact (Nat.Prime prime) := ⟨prime_P25519⟩

/-- `y² = x³ + 486662 x² + x` -/
def curve : Affine (ZMod prime) := ⟨0, (486662 : Nat), 0, 1, 0⟩

/-- The first coordinate of a point; 0 for the neutral element. -/
def firstOf : curve.Point → ZMod prime
  | .zero => 0
  | .some x _ _ => x

/-- The order of the base point. -/
def order : Nat := 2 ^ 252 + 27742317777372353535851937790883648493

/-- The bytes stand for the first coordinate of the point. -/
def Stands (bs : Bytes) (P : curve.Point) : Prop :=
  bs.length = 32 ∧ number bs < prime ∧ ((number bs : Nat) : ZMod prime) = firstOf P

/-- The base point: its first coordinate is 9. -/
def IsBase (G : curve.Point) : Prop := firstOf G = (9 : Nat) ∧ addOrderOf G = order

end Spec

open Spec

theorem number_eq (bs : Bytes) : number bs = leNat bs := by
  have h : ∀ (l : Bytes) (b : UInt8) (acc : Nat), beNat (l ++ [b]) acc = beNat l acc * 256 + b.toNat := by
    intro l b
    induction l with
    | nil => intro acc; simp [beNat]
    | cons x l ih => intro acc; rw [List.cons_append, beNat, beNat, force_eq, force_eq, ih]
  induction bs with
  | nil => rfl
  | cons b bs ih =>
    rw [number, ih, leNat, leNat, List.reverse_cons, h]
    omega

theorem number_lt (bs : Bytes) : number bs < 256 ^ bs.length := by
  induction bs with
  | nil => exact Nat.one_pos
  | cons b bs ih =>
    rw [number, List.length_cons, pow_succ]
    have := b.toNat_lt
    omega

theorem number_lt_32 {bs : Bytes} (h : bs.length = 32) : number bs < 2 ^ 256 := by
  have := number_lt bs
  rw [h] at this
  exact lt_of_lt_of_le this (by norm_num)

theorem number_inj {a b : Bytes} (hl : a.length = b.length) (h : number a = number b) : a = b := by
  induction a generalizing b with
  | nil => exact (List.length_eq_zero_iff.1 hl.symm).symm
  | cons x a ih =>
    cases b with
    | nil => cases hl
    | cons y b =>
      rw [number, number] at h
      have hx := x.toNat_lt
      have hy := y.toNat_lt
      have h1 : x.toNat = y.toNat := by omega
      have h2 : number a = number b := by omega
      rw [UInt8.toNat_inj.1 h1, ih (Nat.succ.inj hl) h2]

/-- The curve is the one of the computation. -/
def onCurve (P : CPoint) : curve.Point := P

theorem firstOf_onCurve (P : CPoint) : firstOf (onCurve P) = xOf P := by
  match P with
  | .zero => rfl
  | .some _ _ _ => rfl

theorem smul_onCurve (n : Nat) (P : CPoint) : n • onCurve P = onCurve (n • P) := rfl

theorem order_onCurve (P : CPoint) : addOrderOf (onCurve P) = addOrderOf P := rfl

/-! ## C77 -/

/-- **C77.** The primitives have every property that the other theorems ask for. -/
theorem C77_lawful : real.Lawful := real_lawful

/-- The modulus is a prime, `2^255 - 19`. -/
theorem C77_prime : Nat.Prime prime ∧ prime = 2 ^ 255 - 19 ∧ Nat.Prime order :=
  ⟨prime_P25519, P25519_eq, prime_Q25519⟩

theorem base_isBase : IsBase (onCurve basePt) := ⟨rfl, (order_onCurve _).trans order_base⟩

theorem stands_genPub {k : Bytes} (hk : k.length = 32) : Stands (real.genPub k) (number k • onCurve basePt) := by
  have e : number (real.genPub k) = X25519.scalarMul (leNat k) 9 := by rw [number_eq]; exact X25519.leNat_genPub k
  refine ⟨X25519.genPub_length k, e ▸ X25519.scalarMul_lt _ _, ?_⟩
  rw [e, smul_onCurve, firstOf_onCurve]
  refine (X25519.scalarMul_base (leNat k)).trans ?_
  rw [← number_eq, Nat.mod_eq_of_lt (number_lt_32 hk)]

theorem number_donna (a pub : Bytes) : number (X25519.donna a pub) = X25519.scalarMul (leNat a) (leNat pub) := by
  rw [number_eq]
  unfold X25519.donna
  rw [force_eq]
  exact leNat_leBytes_32 _ (lt_trans (X25519.scalarMul_lt _ _) (lt_trans P25519_lt top255_lt))

theorem donna_length (a pub : Bytes) : (X25519.donna a pub).length = 32 := by
  unfold X25519.donna
  rw [force_eq]
  exact leBytes_length _ _

/-- **C77.** There is a point of order `2^252 + …` with first coordinate 9 such that the public key of a private key is the first
coordinate of the multiple of this point, and an agreement computes the first coordinate of the multiple by both private keys. -/
theorem C77_agreement : ∃ G : curve.Point, IsBase G ∧
    (∀ k : Bytes, k.length = 32 → Stands (real.genPub k) (number k • G)) ∧
    ∀ a b : Bytes, a.length = 32 → b.length = 32 →
      ∃ s, real.dh a (real.genPub b) = some s ∧ real.dh b (real.genPub a) = some s ∧ Stands s ((number a * number b) • G) := by
  refine ⟨onCurve basePt, base_isBase, fun k hk => stands_genPub hk, ?_⟩
  intro a b ha hb
  obtain ⟨s, h1, h2⟩ := X25519.dh_comm a b ha hb
  refine ⟨s, h1, h2, ?_⟩
  have e : s = X25519.donna a (X25519.genPub b) := by
    unfold X25519.dh at h1
    rw [if_pos ⟨ha, X25519.genPub_length b⟩] at h1
    exact (Option.some.inj h1).symm
  subst e
  refine ⟨donna_length _ _, ?_, ?_⟩
  · rw [number_donna]; exact X25519.scalarMul_lt _ _
  · rw [number_donna, X25519.leNat_genPub, smul_onCurve, firstOf_onCurve]
    refine (X25519.scalarMul_twice _ _).trans ?_
    rw [← number_eq, ← number_eq, Nat.mod_eq_of_lt (number_lt_32 ha), Nat.mod_eq_of_lt (number_lt_32 hb)]

/-- **C77.** A received key that is the first coordinate of a point of the curve other than `(0, 0)`: the agreement is the first
coordinate of the multiple of that point. -/
theorem C77_received (a pub : Bytes) (ha : a.length = 32) (hpub : pub.length = 32) (x y : ZMod prime) (h : curve.Nonsingular x y)
    (hx : ((number pub % 2 ^ 255 : Nat) : ZMod prime) = x) (hx0 : x ≠ 0) :
    ∃ s, real.dh a pub = some s ∧ Stands s (number a • (.some x y h : curve.Point)) := by
  refine ⟨X25519.donna a pub, if_pos ⟨ha, hpub⟩, donna_length _ _, ?_, ?_⟩
  · rw [number_donna]; exact X25519.scalarMul_lt _ _
  · have hm : number pub % 2 ^ 255 % P25519 < P25519 := Nat.mod_lt _ P25519_pos
    have hc : ((number pub % 2 ^ 255 % P25519 : Nat) : Fld) = x := by
      rw [← hx]
      exact ZMod.natCast_mod _ _
    have hsame : X25519.scalarMul (leNat a) (leNat pub) = X25519.scalarMul (leNat a) (number pub % 2 ^ 255 % P25519) := by
      unfold X25519.scalarMul
      rw [number_eq]
      have e : ∀ n : Nat, n % top255 % P25519 = n % 2 ^ 255 % P25519 := fun _ => rfl
      rw [e, e, Nat.mod_eq_of_lt (a := leNat pub % 2 ^ 255 % P25519) (b := 2 ^ 255) (lt_trans (Nat.mod_lt _ P25519_pos) P25519_lt), Nat.mod_mod]
    subst hc
    have hf : firstOf (number a • (.some _ y h : curve.Point)) = xOf (number a • (.some _ y h : CPoint)) := firstOf_onCurve _
    rw [number_donna, hsame, hf]
    refine (X25519.scalarMul_eq (leNat a) _ hm y h hx0).trans ?_
    rw [← number_eq, Nat.mod_eq_of_lt (number_lt_32 ha)]

/-- **C77.** A generated private key is a multiple of 8 between `2^254` and `2^255`. -/
theorem C77_private_key (rand : Bytes) : (real.genPriv rand).length = 32 ∧ 8 ∣ number (real.genPriv rand) ∧
    2 ^ 254 ≤ number (real.genPriv rand) ∧ number (real.genPriv rand) < 2 ^ 255 ∧ ¬ order ∣ number (real.genPriv rand) := by
  have e : number (real.genPriv rand) = X25519.clamp (leNat rand) := by rw [number_eq]; exact X25519.leNat_genPriv rand
  refine ⟨X25519.genPriv_length _, ?_, ?_, ?_, ?_⟩
  · rw [e]
    exact Nat.dvd_add (by norm_num) (Nat.dvd_mul_left _ _)
  · rw [e]
    exact Nat.le_add_right _ _
  · rw [e]
    exact X25519.clamp_lt _
  · rw [e]
    exact clamp_not_dvd _

/-- **C77.** A signature verifies under the public key, for every private key of 32 bytes that is not a multiple of the order. -/
theorem C77_signature (rand priv msg : Bytes) (hr : rand.length = 64) (hp : priv.length = 32) (hq : ¬ order ∣ number priv) :
    ∃ sig, real.calcSig rand priv msg = some sig ∧ sig.length = 64 ∧ real.verifySig (real.genPub priv) msg sig = some true := by
  refine ⟨_, if_pos ⟨hr, hp⟩, XEd.sign_length _ _ _, ?_⟩
  refine (if_pos ⟨X25519.genPub_length _, XEd.sign_length _ _ _⟩).trans ?_
  refine congrArg some (XEd.verify_sign_of _ _ _ ?_ ?_)
  · rw [← number_eq]; exact number_lt_32 hp
  · rw [← number_eq]; exact hq

/-- **C77.** AES decryption inverts encryption, for every key. -/
theorem C77_aes (key block : Bytes) (h : block.length = 16) : real.aesDec key (real.aesEnc key block) = block :=
  Aes.dec_enc key block h

/-! ### Which private keys have the same public key -/

theorem firstOf_eq_iff {P Q : CPoint} (hP : P ≠ 0) (hQ : Q ≠ 0) : xOf P = xOf Q ↔ P = Q ∨ P = -Q := by
  match P, Q, hP, hQ with
  | .zero, _, hP, _ => exact absurd rfl hP
  | .some _ _ _, .zero, _, hQ => exact absurd rfl hQ
  | .some x1 y1 h1, .some x2 y2 h2, _, _ => exact Affine.Point.X_eq_iff (h₁ := h1) (h₂ := h2)

/-- **C77.** Two private keys have the same public key exactly if their sum or difference is a multiple of the order. -/
theorem C77_same_public_key (k k' : Bytes) (hk : k.length = 32) (hk' : k'.length = 32) (hq : ¬ order ∣ number k)
    (hq' : ¬ order ∣ number k') :
    real.genPub k = real.genPub k' ↔ number k ≡ number k' [MOD order] ∨ order ∣ number k + number k' := by
  have h1 := stands_genPub hk
  have h2 := stands_genPub hk'
  have e1 : number k • basePt ≠ 0 := fun h => hq ((smul_base_eq_zero _).1 h)
  have e2 : number k' • basePt ≠ 0 := fun h => hq' ((smul_base_eq_zero _).1 h)
  have ha : real.genPub k = real.genPub k' ↔ xOf (number k • basePt) = xOf (number k' • basePt) := by
    constructor
    · intro h
      have h3 := h1.2.2
      rw [h] at h3
      exact h3.symm.trans h2.2.2
    · intro h
      apply number_inj (h1.1.trans h2.1.symm)
      exact eq_of_cast h1.2.1 h2.2.1 (h1.2.2.trans (h.trans h2.2.2.symm))
  rw [ha, firstOf_eq_iff e1 e2]
  refine or_congr ?_ ?_
  · rw [nsmul_eq_nsmul_iff_modEq, order_base]
    rfl
  · rw [eq_neg_iff_add_eq_zero, ← add_nsmul, smul_base_eq_zero]
    rfl

/-- **C77.** Two generated private keys have the same public key exactly if they are equal or add up to eight times the order. -/
theorem C77_same_generated (r r' : Bytes) : real.genPub (real.genPriv r) = real.genPub (real.genPriv r') ↔
    real.genPriv r = real.genPriv r' ∨ number (real.genPriv r) + number (real.genPriv r') = 8 * order := by
  obtain ⟨l1, ⟨m1, d1⟩, lo1, hi1, q1⟩ := C77_private_key r
  obtain ⟨l2, ⟨m2, d2⟩, lo2, hi2, q2⟩ := C77_private_key r'
  rw [C77_same_public_key _ _ l1 l2 q1 q2]
  have ho : order = 2 ^ 252 + 27742317777372353535851937790883648493 := rfl
  have hcop : Nat.Coprime order 8 := by
    refine (Nat.Prime.coprime_iff_not_dvd C77_prime.2.2).2 fun h => ?_
    have := Nat.le_of_dvd (by norm_num) h
    omega
  refine or_congr ?_ ?_
  · constructor
    · intro h
      apply number_inj (l1.trans l2.symm)
      rw [d1, d2] at h ⊢
      have h' : m1 ≡ m2 [MOD order] := Nat.ModEq.cancel_left_of_coprime hcop h
      have b1 : m1 < order := by omega
      have b2 : m2 < order := by omega
      rw [Nat.ModEq.eq_of_lt_of_lt h' b1 b2]
    · intro h
      rw [h]
  · constructor
    · intro h
      rw [d1, d2, ← Nat.mul_add] at h ⊢
      obtain ⟨c, hc⟩ := hcop.dvd_of_dvd_mul_left h
      have hc1 : c = 1 := by
        have hb1 : 2 ^ 252 ≤ m1 + m2 := by omega
        have hb2 : m1 + m2 < 2 ^ 253 := by omega
        rw [hc, ho] at hb1 hb2
        rcases Nat.lt_or_ge c 1 with h0 | h0
        · have : c = 0 := by omega
          rw [this] at hb1
          omega
        · rcases Nat.lt_or_ge c 2 with h2 | h2
          · omega
          · exfalso
            have := Nat.mul_le_mul_left (2 ^ 252 + 27742317777372353535851937790883648493) h2
            omega
      rw [hc, hc1, Nat.mul_one]
    · intro h
      rw [h]
      exact Nat.dvd_mul_left _ _

/-- **C77.** There are different generated private keys with the same public key. -/
theorem C77_two_keys : ∃ r r' : Bytes, r.length = 32 ∧ r'.length = 32 ∧ real.genPriv r ≠ real.genPriv r' ∧
    real.genPub (real.genPriv r) = real.genPub (real.genPriv r') := by
  refine ⟨leBytes 32 (8 * (2 ^ 251 + 5)), leBytes 32 (8 * (order - (2 ^ 251 + 5))), leBytes_length _ _, leBytes_length _ _,
    by decide +kernel, ?_⟩
  rw [C77_same_generated]
  exact .inr (by decide +kernel)

/-! ### The hypotheses are met -/

/-- The base point itself, received as a key. -/
example (a : Bytes) (ha : a.length = 32) : ∃ s, real.dh a (9 :: List.replicate 31 0) = some s ∧
    Stands s (number a • (.some _ _ XEd.base_nonsingular : curve.Point)) :=
  C77_received a _ ha (by decide) _ _ XEd.base_nonsingular
    (congrArg Nat.cast (show number (9 :: List.replicate 31 0) % 2 ^ 255 = 9 by decide))
    (cast_ne_zero (by norm_num) (by decide +kernel))

example := C77_signature (List.replicate 64 7) (List.replicate 32 1) [1, 2, 3] (by simp) (by simp) (by decide +kernel)

/-- Theorems about any lawful primitives, for these. -/
example := @C01_cipher_roundtrip real real_lawful
example := @C70_delivery real real_lawful
example := fun (M : Type) [DecidableEq M] => C72_read (C := real) (M := M) real_lawful

/-- **C77.** Signing with the private key 0, whose public key is 0, can make a signature that does not verify. -/
theorem C77_zero_key : ∃ rand msg sig : Bytes, rand.length = 64 ∧
    real.calcSig rand (List.replicate 32 0) msg = some sig ∧
    real.verifySig (real.genPub (List.replicate 32 0)) msg sig = some false := by
  refine ⟨List.replicate 64 0, [1], XEd.sign (List.replicate 64 0) (List.replicate 32 0) [1], by simp, ?_, ?_⟩
  · change XEd.calcSig _ _ _ = _
    exact if_pos ⟨by simp, by simp⟩
  · decide +kernel

/-! ## C78: what a received key can do to an agreement -/

/-- The ideal: whatever key is received, our private key makes a difference to the secret. -/
def Contributory : Prop := ∀ pub : Bytes, pub.length = 32 → ∃ a b s t : Bytes, real.Generated a ∧ real.Generated b ∧
  real.dh a pub = some s ∧ real.dh b pub = some t ∧ s ≠ t

theorem zeros_number : number (List.replicate 32 0) = 0 := by decide

/-- **C78.** The key 0 is accepted, and the secret is 0 for every private key. -/
theorem C78_zero (a : Bytes) (ha : a.length = 32) : real.dh a (List.replicate 32 0) = some (List.replicate 32 0) := by
  refine (if_pos ⟨ha, by simp⟩).trans (congrArg some ?_)
  apply number_inj (by rw [donna_length]; simp)
  rw [number_donna, zeros_number, ← number_eq (List.replicate 32 0), zeros_number, X25519.scalarMul_zero]

/-- **C78** is false: nothing is checked about received keys. -/
theorem C78_false : ¬ Contributory := by
  intro h
  obtain ⟨a, b, s, t, ha, hb, h1, h2, hne⟩ := h (List.replicate 32 0) (by simp)
  rw [C78_zero a ha.1] at h1
  rw [C78_zero b hb.1] at h2
  exact hne ((Option.some.inj h1).symm.trans (Option.some.inj h2))

/-- **C78** (what holds): if the received key was made from a private key that is not a multiple of the order, as every generated key is,
the secret is not 0, and it determines our private key up to sign and multiples of the order. -/
theorem C78_honest_partial (a a' b : Bytes) (ha : real.Generated a) (ha' : real.Generated a') (hb : real.Generated b) :
    ∃ s t, real.dh a (real.genPub b) = some s ∧ real.dh a' (real.genPub b) = some t ∧ s ≠ List.replicate 32 0 ∧
      (s = t ↔ a = a' ∨ number a + number a' = 8 * order) := by
  obtain ⟨la, ra, ea⟩ := ha
  obtain ⟨la', ra', ea'⟩ := ha'
  obtain ⟨lb, rb, eb⟩ := hb
  have qa : ¬ order ∣ number a := by rw [ea]; exact (C77_private_key ra).2.2.2.2
  have qa' : ¬ order ∣ number a' := by rw [ea']; exact (C77_private_key ra').2.2.2.2
  have qb : ¬ order ∣ number b := by rw [eb]; exact (C77_private_key rb).2.2.2.2
  have hpr : Nat.Prime order := C77_prime.2.2
  have qab : ¬ order ∣ number a * number b := fun h => (hpr.dvd_mul.1 h).elim qa qb
  have qab' : ¬ order ∣ number a' * number b := fun h => (hpr.dvd_mul.1 h).elim qa' qb
  have hst : ∀ {k : Bytes}, k.length = 32 → ∃ s, real.dh k (real.genPub b) = some s ∧ s.length = 32 ∧ number s < P25519 ∧
      ((number s : Nat) : Fld) = xOf ((number k * number b) • basePt) := by
    intro k hk
    refine ⟨_, if_pos ⟨hk, X25519.genPub_length b⟩, donna_length _ _, ?_, ?_⟩
    · rw [number_donna]; exact X25519.scalarMul_lt _ _
    · change ((number (X25519.donna k (X25519.genPub b)) : Nat) : Fld) = _
      rw [number_donna, X25519.leNat_genPub, X25519.scalarMul_twice, ← number_eq, ← number_eq, Nat.mod_eq_of_lt (number_lt_32 hk),
        Nat.mod_eq_of_lt (number_lt_32 lb)]
  obtain ⟨s, s1, s2, s3, s4⟩ := hst la
  obtain ⟨t, t1, t2, t3, t4⟩ := hst la'
  refine ⟨s, t, s1, t1, ?_, ?_⟩
  · intro h
    obtain ⟨x, y, hp, e, hx, _⟩ := smul_base_some _ qab
    rw [h, zeros_number, e, Nat.cast_zero] at s4
    exact hx s4.symm
  · have hpub := C77_same_generated ra ra'
    rw [← ea, ← ea', C77_same_public_key _ _ la la' qa qa'] at hpub
    rw [← hpub]
    have hne : (number a * number b) • basePt ≠ 0 := fun h => qab ((smul_base_eq_zero _).1 h)
    have hne' : (number a' * number b) • basePt ≠ 0 := fun h => qab' ((smul_base_eq_zero _).1 h)
    have h1 : s = t ↔ xOf ((number a * number b) • basePt) = xOf ((number a' * number b) • basePt) := by
      rw [← s4, ← t4]
      constructor
      · intro h; rw [h]
      · intro h
        exact number_inj (s2.trans t2.symm) (eq_of_cast s3 t3 h)
    rw [h1, firstOf_eq_iff hne hne']
    have hcop : Nat.Coprime order (number b) := (Nat.Prime.coprime_iff_not_dvd hpr).2 qb
    refine or_congr ?_ ?_
    · rw [nsmul_eq_nsmul_iff_modEq, order_base]
      exact ⟨fun h => Nat.ModEq.cancel_right_of_coprime hcop h, fun h => Nat.ModEq.mul_right _ h⟩
    · rw [eq_neg_iff_add_eq_zero, ← add_nsmul, smul_base_eq_zero, ← Nat.add_mul]
      exact ⟨fun h => hcop.dvd_of_dvd_mul_right h, fun h => Dvd.dvd.mul_right h _⟩

example := C78_honest_partial (real.genPriv [1]) (real.genPriv [2]) (real.genPriv [3]) ⟨(C77_private_key _).1, _, rfl⟩
  ⟨(C77_private_key _).1, _, rfl⟩ ⟨(C77_private_key _).1, _, rfl⟩

/-- **C78.** Only the lower 255 bits of a received key count, and only modulo the prime: different keys can give the same secret. -/
theorem C78_same_secret (a p q : Bytes) (hp : p.length = 32) (hq : q.length = 32)
    (h : number p % 2 ^ 255 ≡ number q % 2 ^ 255 [MOD prime]) : real.dh a p = real.dh a q := by
  change X25519.dh a p = X25519.dh a q
  unfold X25519.dh X25519.donna X25519.scalarMul
  have e : leNat p % top255 % P25519 = leNat q % top255 % P25519 := by
    rw [← number_eq, ← number_eq]
    exact h
  rw [hp, hq, e]

/-- The same secret with the highest bit of the key set. -/
example (a : Bytes) : real.dh a (9 :: List.replicate 31 0) = real.dh a (9 :: List.replicate 30 0 ++ [128]) :=
  C78_same_secret a _ _ (by decide) (by decide) (by decide)

section
attribute [local instance] real

/-- **C78.** A first message whose identity key and base key are 0 makes every recipient compute the same secrets, which do not depend on
any key: nothing in the session is secret, and whoever sent it need not know any private key. -/
theorem C78_first_message (p : BobParameters) (h1 : p.ourSignedPreKey.priv.length = 32) (h2 : p.ourIdentityKey.priv.length = 32)
    (h3 : ∀ k, p.ourOneTimePreKey = some k → k.priv.length = 32) (hi : p.theirIdentityKey = List.replicate 32 0)
    (hb : p.theirBaseKey = List.replicate 32 0) :
    RatchetingSession.bobSecrets p = .ok (List.replicate 32 0xFF ++
      List.replicate (if p.ourOneTimePreKey = none then 96 else 128) 0) := by
  have hz : ∀ k : Bytes, k.length = 32 → Curve.calculateAgreement (List.replicate 32 0) k = .ok (List.replicate 32 0) := by
    intro k hk
    unfold Curve.calculateAgreement
    rw [show Crypto.dh k (List.replicate 32 0) = some (List.replicate 32 0) from C78_zero k hk]
  unfold RatchetingSession.bobSecrets
  rw [hi, hb, hz _ h1, ok_bind, hz _ h2, ok_bind]
  cases hk : p.ourOneTimePreKey with
  | none => rfl
  | some k =>
    simp only [ok_bind, hz _ (h3 k hk)]
    rfl

end

end Axolotl
