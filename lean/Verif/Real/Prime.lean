import Mathlib.NumberTheory.LucasPrimality
import Mathlib.Tactic.NormNum.Prime
import Verif.Real.X25519

/-!
# The two primes of Curve25519

`P25519` and `Q25519` are prime: Lucas' test, with the factors of `n - 1` proved prime in the same way.
-/

namespace Axolotl.Real

/-- `acc ^ (2 ^ k) * a ^ (e mod 2 ^ k)` modulo `n` -/
def powMod (n a e k : Nat) : Nat → Nat :=
  Nat.rec (fun acc => acc) (fun k powMod acc => force (Nat.mod (Nat.mul acc acc) n) fun s =>
    bif Nat.testBit e k then force (Nat.mod (Nat.mul s a) n) fun t => powMod t else powMod s) k

/-- The exponent without its bits from `k` on, one bit at a time. -/
theorem mod_two_pow_succ_testBit (e k : Nat) : e % 2 ^ (k + 1) = (e.testBit k).toNat * 2 ^ k + e % 2 ^ k := by
  have h := Nat.mod_mul (x := e) (a := 2 ^ k) (b := 2)
  rw [pow_succ, h, Nat.toNat_testBit, Nat.add_comm, Nat.mul_comm]

theorem powMod_cast (n a e k acc : Nat) :
    ((powMod n a e k acc : Nat) : ZMod n) = (acc : ZMod n) ^ 2 ^ k * (a : ZMod n) ^ (e % 2 ^ k) := by
  induction k generalizing acc with
  | zero => simp [powMod, Nat.mod_one]
  | succ k ih =>
    have hs : ((Nat.mod (Nat.mul acc acc) n : Nat) : ZMod n) = (acc : ZMod n) ^ 2 := by
      show ((acc * acc % n : Nat) : ZMod n) = _
      simp [sq]
    rw [mod_two_pow_succ_testBit]
    show ((force (Nat.mod (Nat.mul acc acc) n) fun s =>
      bif Nat.testBit e k then force (Nat.mod (Nat.mul s a) n) fun t => powMod n a e k t else powMod n a e k s : Nat) : ZMod n) = _
    simp only [force_eq]
    cases e.testBit k with
    | false =>
      rw [cond_false, ih, hs]
      simp only [Bool.toNat_false, Nat.zero_mul, Nat.zero_add]
      rw [← pow_mul, pow_succ' 2 k]
    | true =>
      rw [cond_true, ih]
      have ht : ((Nat.mod (Nat.mul (Nat.mod (Nat.mul acc acc) n) a) n : Nat) : ZMod n) = (acc : ZMod n) ^ 2 * a := by
        show ((Nat.mod (Nat.mul acc acc) n * a % n : Nat) : ZMod n) = _
        rw [ZMod.natCast_mod, Nat.cast_mul, hs]
      rw [ht]
      simp only [Bool.toNat_true, Nat.one_mul]
      rw [mul_pow, ← pow_mul, pow_succ' 2 k, pow_add]
      ring

theorem powMod_eq (n a e : Nat) (he : e < 2 ^ 256) : ((powMod n a e 256 1 : Nat) : ZMod n) = (a : ZMod n) ^ e := by
  rw [powMod_cast, Nat.cast_one, one_pow, one_mul, Nat.mod_eq_of_lt he]

/-- Lucas' test with the prime factors of `n - 1`. -/
theorem prime_of_factors (n a : Nat) (fs : List Nat) (hn : 1 < n) (hb : n < 2 ^ 256) (hfs : ∀ f ∈ fs, f.Prime)
    (hp : fs.prod = n - 1) (h1 : powMod n a (n - 1) 256 1 % n = 1)
    (h2 : fs.all fun f => powMod n a ((n - 1) / f) 256 1 % n != 1) : n.Prime := by
  refine lucas_primality n (a : ZMod n) ?_ ?_
  · rw [← powMod_eq n a (n - 1) (by omega), ← ZMod.natCast_mod, h1, Nat.cast_one]
  · intro q hq hd he
    have hm : q ∈ fs := by
      rw [← hp] at hd
      obtain ⟨f, hf, hdf⟩ := (Prime.dvd_prod_iff hq.prime).1 hd
      rwa [(Nat.prime_dvd_prime_iff_eq hq (hfs f hf)).1 hdf]
    have h3 := List.all_eq_true.1 h2 q hm
    have hlt : (n - 1) / q < 2 ^ 256 := Nat.lt_of_le_of_lt (Nat.div_le_self _ _) (by omega)
    rw [← powMod_eq n a _ hlt] at he
    have he' := (ZMod.natCast_eq_natCast_iff' _ 1 n).1 (by rw [he, Nat.cast_one])
    rw [Nat.mod_eq_of_lt hn] at he'
    simp [he'] at h3

theorem prime_132049 : Nat.Prime 132049 := by
  refine prime_of_factors 132049 26 [2, 2, 2, 2, 3, 3, 7, 131] (by norm_num) (by norm_num) ?_ (by norm_num) (by decide +kernel) (by decide +kernel)
  simp only [List.mem_cons, List.not_mem_nil, or_false, forall_eq_or_imp, forall_eq]
  refine ⟨by norm_num, by norm_num, by norm_num, by norm_num, by norm_num, by norm_num, by norm_num, by norm_num⟩

theorem prime_132667 : Nat.Prime 132667 := by
  refine prime_of_factors 132667 5 [2, 3, 22111] (by norm_num) (by norm_num) ?_ (by norm_num) (by decide +kernel) (by decide +kernel)
  simp only [List.mem_cons, List.not_mem_nil, or_false, forall_eq_or_imp, forall_eq]
  refine ⟨by norm_num, by norm_num, by norm_num⟩

theorem prime_137849 : Nat.Prime 137849 := by
  refine prime_of_factors 137849 3 [2, 2, 2, 17231] (by norm_num) (by norm_num) ?_ (by norm_num) (by decide +kernel) (by decide +kernel)
  simp only [List.mem_cons, List.not_mem_nil, or_false, forall_eq_or_imp, forall_eq]
  refine ⟨by norm_num, by norm_num, by norm_num, by norm_num⟩

theorem prime_409477 : Nat.Prime 409477 := by
  refine prime_of_factors 409477 2 [2, 2, 3, 34123] (by norm_num) (by norm_num) ?_ (by norm_num) (by decide +kernel) (by decide +kernel)
  simp only [List.mem_cons, List.not_mem_nil, or_false, forall_eq_or_imp, forall_eq]
  refine ⟨by norm_num, by norm_num, by norm_num, by norm_num⟩

theorem prime_430751 : Nat.Prime 430751 := by
  refine prime_of_factors 430751 17 [2, 5, 5, 5, 1723] (by norm_num) (by norm_num) ?_ (by norm_num) (by decide +kernel) (by decide +kernel)
  simp only [List.mem_cons, List.not_mem_nil, or_false, forall_eq_or_imp, forall_eq]
  refine ⟨by norm_num, by norm_num, by norm_num, by norm_num, by norm_num⟩

theorem prime_531581 : Nat.Prime 531581 := by
  refine prime_of_factors 531581 2 [2, 2, 5, 7, 3797] (by norm_num) (by norm_num) ?_ (by norm_num) (by decide +kernel) (by decide +kernel)
  simp only [List.mem_cons, List.not_mem_nil, or_false, forall_eq_or_imp, forall_eq]
  refine ⟨by norm_num, by norm_num, by norm_num, by norm_num, by norm_num⟩

theorem prime_569003 : Nat.Prime 569003 := by
  refine prime_of_factors 569003 2 [2, 7, 97, 419] (by norm_num) (by norm_num) ?_ (by norm_num) (by decide +kernel) (by decide +kernel)
  simp only [List.mem_cons, List.not_mem_nil, or_false, forall_eq_or_imp, forall_eq]
  refine ⟨by norm_num, by norm_num, by norm_num, by norm_num⟩

theorem prime_1224481 : Nat.Prime 1224481 := by
  refine prime_of_factors 1224481 13 [2, 2, 2, 2, 2, 3, 5, 2551] (by norm_num) (by norm_num) ?_ (by norm_num) (by decide +kernel) (by decide +kernel)
  simp only [List.mem_cons, List.not_mem_nil, or_false, forall_eq_or_imp, forall_eq]
  refine ⟨by norm_num, by norm_num, by norm_num, by norm_num, by norm_num, by norm_num, by norm_num, by norm_num⟩

theorem prime_1923133 : Nat.Prime 1923133 := by
  refine prime_of_factors 1923133 2 [2, 2, 3, 43, 3727] (by norm_num) (by norm_num) ?_ (by norm_num) (by decide +kernel) (by decide +kernel)
  simp only [List.mem_cons, List.not_mem_nil, or_false, forall_eq_or_imp, forall_eq]
  refine ⟨by norm_num, by norm_num, by norm_num, by norm_num, by norm_num⟩

theorem prime_8574133 : Nat.Prime 8574133 := by
  refine prime_of_factors 8574133 2 [2, 2, 3, 7, 103, 991] (by norm_num) (by norm_num) ?_ (by norm_num) (by decide +kernel) (by decide +kernel)
  simp only [List.mem_cons, List.not_mem_nil, or_false, forall_eq_or_imp, forall_eq]
  refine ⟨by norm_num, by norm_num, by norm_num, by norm_num, by norm_num, by norm_num⟩

theorem prime_14741173 : Nat.Prime 14741173 := by
  refine prime_of_factors 14741173 2 [2, 2, 3, 3, 409477] (by norm_num) (by norm_num) ?_ (by norm_num) (by decide +kernel) (by decide +kernel)
  simp only [List.mem_cons, List.not_mem_nil, or_false, forall_eq_or_imp, forall_eq]
  refine ⟨by norm_num, by norm_num, by norm_num, by norm_num, prime_409477⟩

theorem prime_58964693 : Nat.Prime 58964693 := by
  refine prime_of_factors 58964693 2 [2, 2, 14741173] (by norm_num) (by norm_num) ?_ (by norm_num) (by decide +kernel) (by decide +kernel)
  simp only [List.mem_cons, List.not_mem_nil, or_false, forall_eq_or_imp, forall_eq]
  refine ⟨by norm_num, by norm_num, prime_14741173⟩

theorem prime_292386187 : Nat.Prime 292386187 := by
  refine prime_of_factors 292386187 2 [2, 3, 3, 3, 3, 307, 5879] (by norm_num) (by norm_num) ?_ (by norm_num) (by decide +kernel) (by decide +kernel)
  simp only [List.mem_cons, List.not_mem_nil, or_false, forall_eq_or_imp, forall_eq]
  refine ⟨by norm_num, by norm_num, by norm_num, by norm_num, by norm_num, by norm_num, by norm_num⟩

theorem prime_2773320623 : Nat.Prime 2773320623 := by
  refine prime_of_factors 2773320623 5 [2, 2437, 569003] (by norm_num) (by norm_num) ?_ (by norm_num) (by decide +kernel) (by decide +kernel)
  simp only [List.mem_cons, List.not_mem_nil, or_false, forall_eq_or_imp, forall_eq]
  refine ⟨by norm_num, by norm_num, prime_569003⟩

theorem prime_72106336199 : Nat.Prime 72106336199 := by
  refine prime_of_factors 72106336199 7 [2, 13, 2773320623] (by norm_num) (by norm_num) ?_ (by norm_num) (by decide +kernel) (by decide +kernel)
  simp only [List.mem_cons, List.not_mem_nil, or_false, forall_eq_or_imp, forall_eq]
  refine ⟨by norm_num, by norm_num, prime_2773320623⟩

theorem prime_213441916511 : Nat.Prime 213441916511 := by
  refine prime_of_factors 213441916511 13 [2, 5, 73, 292386187] (by norm_num) (by norm_num) ?_ (by norm_num) (by decide +kernel) (by decide +kernel)
  simp only [List.mem_cons, List.not_mem_nil, or_false, forall_eq_or_imp, forall_eq]
  refine ⟨by norm_num, by norm_num, by norm_num, prime_292386187⟩

theorem prime_1257559732178653 : Nat.Prime 1257559732178653 := by
  refine prime_of_factors 1257559732178653 2 [2, 2, 3, 7, 23, 531581, 1224481] (by norm_num) (by norm_num) ?_ (by norm_num) (by decide +kernel) (by decide +kernel)
  simp only [List.mem_cons, List.not_mem_nil, or_false, forall_eq_or_imp, forall_eq]
  refine ⟨by norm_num, by norm_num, by norm_num, by norm_num, by norm_num, prime_531581, prime_1224481⟩

theorem prime_1919519569386763 : Nat.Prime 1919519569386763 := by
  refine prime_of_factors 1919519569386763 2 [2, 3, 7, 19, 47, 47, 127, 8574133] (by norm_num) (by norm_num) ?_ (by norm_num) (by decide +kernel) (by decide +kernel)
  simp only [List.mem_cons, List.not_mem_nil, or_false, forall_eq_or_imp, forall_eq]
  refine ⟨by norm_num, by norm_num, by norm_num, by norm_num, by norm_num, by norm_num, by norm_num, prime_8574133⟩

theorem prime_31757755568855353 : Nat.Prime 31757755568855353 := by
  refine prime_of_factors 31757755568855353 10 [2, 2, 2, 3, 31, 107, 223, 4153, 430751] (by norm_num) (by norm_num) ?_ (by norm_num) (by decide +kernel) (by decide +kernel)
  simp only [List.mem_cons, List.not_mem_nil, or_false, forall_eq_or_imp, forall_eq]
  refine ⟨by norm_num, by norm_num, by norm_num, by norm_num, by norm_num, by norm_num, by norm_num, by norm_num, prime_430751⟩

theorem prime_4434155615661930479 : Nat.Prime 4434155615661930479 := by
  refine prime_of_factors 4434155615661930479 17 [2, 41, 43, 1257559732178653] (by norm_num) (by norm_num) ?_ (by norm_num) (by decide +kernel) (by decide +kernel)
  simp only [List.mem_cons, List.not_mem_nil, or_false, forall_eq_or_imp, forall_eq]
  refine ⟨by norm_num, by norm_num, by norm_num, prime_1257559732178653⟩

theorem prime_3044861653679985063343 : Nat.Prime 3044861653679985063343 := by
  refine prime_of_factors 3044861653679985063343 5 [2, 3, 11, 30703, 82163, 132667, 137849] (by norm_num) (by norm_num) ?_ (by norm_num) (by decide +kernel) (by decide +kernel)
  simp only [List.mem_cons, List.not_mem_nil, or_false, forall_eq_or_imp, forall_eq]
  refine ⟨by norm_num, by norm_num, by norm_num, by norm_num, by norm_num, prime_132667, prime_137849⟩

theorem prime_172054593956031949258510691 : Nat.Prime 172054593956031949258510691 := by
  refine prime_of_factors 172054593956031949258510691 2 [2, 5, 1361, 2851, 4434155615661930479] (by norm_num) (by norm_num) ?_ (by norm_num) (by decide +kernel) (by decide +kernel)
  simp only [List.mem_cons, List.not_mem_nil, or_false, forall_eq_or_imp, forall_eq]
  refine ⟨by norm_num, by norm_num, by norm_num, by norm_num, prime_4434155615661930479⟩

theorem prime_198211423230930754013084525763697 : Nat.Prime 198211423230930754013084525763697 := by
  refine prime_of_factors 198211423230930754013084525763697 5 [2, 2, 2, 2, 3, 23, 58964693, 3044861653679985063343] (by norm_num) (by norm_num) ?_ (by norm_num) (by decide +kernel) (by decide +kernel)
  simp only [List.mem_cons, List.not_mem_nil, or_false, forall_eq_or_imp, forall_eq]
  refine ⟨by norm_num, by norm_num, by norm_num, by norm_num, by norm_num, by norm_num, prime_58964693, prime_3044861653679985063343⟩

theorem prime_75445702479781427272750846543864801 : Nat.Prime 75445702479781427272750846543864801 := by
  refine prime_of_factors 75445702479781427272750846543864801 7 [2, 2, 2, 2, 2, 3, 3, 5, 5, 75707, 72106336199, 1919519569386763] (by norm_num) (by norm_num) ?_ (by norm_num) (by decide +kernel) (by decide +kernel)
  simp only [List.mem_cons, List.not_mem_nil, or_false, forall_eq_or_imp, forall_eq]
  refine ⟨by norm_num, by norm_num, by norm_num, by norm_num, by norm_num, by norm_num, by norm_num, by norm_num, by norm_num, by norm_num, prime_72106336199, prime_1919519569386763⟩

theorem prime_19757330305831588566944191468367130476339 : Nat.Prime 19757330305831588566944191468367130476339 := by
  refine prime_of_factors 19757330305831588566944191468367130476339 2 [2, 269, 213441916511, 172054593956031949258510691] (by norm_num) (by norm_num) ?_ (by norm_num) (by decide +kernel) (by decide +kernel)
  simp only [List.mem_cons, List.not_mem_nil, or_false, forall_eq_or_imp, forall_eq]
  refine ⟨by norm_num, by norm_num, prime_213441916511, prime_172054593956031949258510691⟩

theorem prime_276602624281642239937218680557139826668747 : Nat.Prime 276602624281642239937218680557139826668747 := by
  refine prime_of_factors 276602624281642239937218680557139826668747 2 [2, 7, 19757330305831588566944191468367130476339] (by norm_num) (by norm_num) ?_ (by norm_num) (by decide +kernel) (by decide +kernel)
  simp only [List.mem_cons, List.not_mem_nil, or_false, forall_eq_or_imp, forall_eq]
  refine ⟨by norm_num, by norm_num, prime_19757330305831588566944191468367130476339⟩

theorem prime_74058212732561358302231226437062788676166966415465897661863160754340907 : Nat.Prime 74058212732561358302231226437062788676166966415465897661863160754340907 := by
  refine prime_of_factors 74058212732561358302231226437062788676166966415465897661863160754340907 2 [2, 3, 353, 57467, 132049, 1923133, 31757755568855353, 75445702479781427272750846543864801] (by norm_num) (by norm_num) ?_ (by norm_num) (by decide +kernel) (by decide +kernel)
  simp only [List.mem_cons, List.not_mem_nil, or_false, forall_eq_or_imp, forall_eq]
  refine ⟨by norm_num, by norm_num, by norm_num, by norm_num, prime_132049, prime_1923133, prime_31757755568855353, prime_75445702479781427272750846543864801⟩

/-- The field of the curve is a field. -/
theorem prime_P25519 : Nat.Prime P25519 := by
  refine prime_of_factors P25519 2 [2, 2, 3, 65147, 74058212732561358302231226437062788676166966415465897661863160754340907] (by decide +kernel) (by decide +kernel) ?_ (by decide +kernel) (by decide +kernel)
    (by decide +kernel)
  simp only [List.mem_cons, List.not_mem_nil, or_false, forall_eq_or_imp, forall_eq]
  refine ⟨by norm_num, by norm_num, by norm_num, by norm_num, prime_74058212732561358302231226437062788676166966415465897661863160754340907⟩

/-- The order of the base point is prime. -/
theorem prime_Q25519 : Nat.Prime Q25519 := by
  refine prime_of_factors Q25519 2 [2, 2, 3, 11, 198211423230930754013084525763697, 276602624281642239937218680557139826668747] (by decide +kernel) (by decide +kernel) ?_ (by decide +kernel) (by decide +kernel)
    (by decide +kernel)
  simp only [List.mem_cons, List.not_mem_nil, or_false, forall_eq_or_imp, forall_eq]
  refine ⟨by norm_num, by norm_num, by norm_num, by norm_num, prime_198211423230930754013084525763697, prime_276602624281642239937218680557139826668747⟩

end Axolotl.Real
