import Verif.Real.Sha2

/-!
# AES (FIPS 197)

The block cipher behind `cryptography`'s `algorithms.AES`, for keys of 16, 24 and 32 bytes.  A block is a list of 16 bytes, column
after column; a round key is a number of 128 bits.
-/

set_option linter.unusedSimpArgs false

namespace Axolotl.Real

/-- `k b`, with the bytes evaluated before the call when the kernel computes. -/
def forceBytes {α : Type} : Bytes → (Bytes → α) → α
  | [], k => k []
  | b :: bs, k => force b.toNat fun n => forceBytes bs fun r => k (UInt8.ofNat n :: r)

@[simp] theorem forceBytes_eq {α : Type} (b : Bytes) (k : Bytes → α) : forceBytes b k = k b := by
  induction b generalizing k with
  | nil => rfl
  | cons b bs ih => simp [forceBytes, ih]

namespace Aes

/-- FIPS 197, figure 7, entry 0 lowest -/
def sboxTable : Nat :=
  0x16bb54b00f2d99416842e6bf0d89a18cdf2855cee9871e9b948ed9691198f8e19e1dc186b95735610ef6034866b53e708a8bbd4b1f74dde8c6b4a61c2e2578ba08ae7a65eaf4566ca94ed58d6d37c8e779e4959162acd3c25c2406490a3a32e0db0b5ede14b8ee4688902a22dc4f816073195d643d7ea7c41744975fec130ccdd2f3ff1021dab6bcf5389d928f40a351a89f3c507f02f94585334d43fbaaefd0cf584c4a39becb6a5bb1fc20ed00d153842fe329b3d63b52a05a6e1b1a2c830975b227ebe28012079a059618c323c7041531d871f1e5a534ccf73f362693fdb7c072a49cafa2d4adf04759fa7dc982ca76abd7fe2b670130c56f6bf27b777c63

/-- FIPS 197, figure 14, entry 0 lowest -/
def invTable : Nat :=
  0x7d0c2155631469e126d677ba7e042b17619953833cbbebc8b0f52aae4d3be0a0ef9cc9939f7ae52d0d4ab519a97f51605fec8027591012b131c7078833a8dd1ff45acd78fec0db9a2079d2c64b3e56fc1bbe18aa0e62b76f89c5291d711af1476edf751ce837f9e28535ade72274ac9673e6b4f0cecff297eadc674f4111913a6b8a130103bdafc1020f3fca8f1e2cd00645b3b80558e4f70ad3bc8c00abd890849d8da75746155edab9edfd5048706c92b6655dcc5ca4d41698688664f6f87225d18b6d49a25b76b224d92866a12e084ec3fa420b954cee3d23c2a632947b54cbe9dec444438e3487ff2f9b8239e37cfbd7f3819ea340bf38a53630d56a0952

def sub (b : UInt8) : UInt8 := UInt8.ofNat (sboxTable >>> (8 * b.toNat) % 256)

def invSub (b : UInt8) : UInt8 := UInt8.ofNat (invTable >>> (8 * b.toNat) % 256)

/-- `xtime`, FIPS 197, 4.2.1: the bits move up by one, and the one that falls out comes back as 0x1b. -/
def xtime (b : UInt8) : UInt8 :=
  (b <<< 1) ^^^ ((b >>> 7) ^^^ (((b >>> 7) <<< 1) ^^^ (((b >>> 7) <<< 3) ^^^ ((b >>> 7) <<< 4))))

/-- FIPS 197, 5.1.2: the rows of the 4×4 state shift to the left.  Blocks of another size do not occur. -/
def shiftRows : Bytes → Bytes
  | [a0, a1, a2, a3, b0, b1, b2, b3, c0, c1, c2, c3, d0, d1, d2, d3] =>
    [a0, b1, c2, d3, b0, c1, d2, a3, c0, d1, a2, b3, d0, a1, b2, c3]
  | b => b

/-- FIPS 197, 5.3.1 -/
def invShiftRows : Bytes → Bytes
  | [a0, b1, c2, d3, b0, c1, d2, a3, c0, d1, a2, b3, d0, a1, b2, c3] =>
    [a0, a1, a2, a3, b0, b1, b2, b3, c0, c1, c2, c3, d0, d1, d2, d3]
  | b => b

/-- FIPS 197, 5.1.3 -/
def mixColumns : Bytes → Bytes
  | a :: b :: c :: d :: r =>
    (xtime a ^^^ (xtime b ^^^ (b ^^^ (c ^^^ d)))) :: (a ^^^ (xtime b ^^^ (xtime c ^^^ (c ^^^ d)))) ::
    (a ^^^ (b ^^^ (xtime c ^^^ (xtime d ^^^ d)))) :: (xtime a ^^^ (a ^^^ (b ^^^ (c ^^^ xtime d)))) :: mixColumns r
  | b => b

/-- multiplication by 9, 11, 13 and 14 (FIPS 197, 4.2) -/
def mul9 (b : UInt8) : UInt8 := xtime (xtime (xtime b)) ^^^ b
def mul11 (b : UInt8) : UInt8 := xtime (xtime (xtime b)) ^^^ (xtime b ^^^ b)
def mul13 (b : UInt8) : UInt8 := xtime (xtime (xtime b)) ^^^ (xtime (xtime b) ^^^ b)
def mul14 (b : UInt8) : UInt8 := xtime (xtime (xtime b)) ^^^ (xtime (xtime b) ^^^ xtime b)

/-- FIPS 197, 5.3.3 -/
def invMixColumns : Bytes → Bytes
  | a :: b :: c :: d :: r =>
    (mul14 a ^^^ (mul11 b ^^^ (mul13 c ^^^ mul9 d))) :: (mul9 a ^^^ (mul14 b ^^^ (mul11 c ^^^ mul13 d))) ::
    (mul13 a ^^^ (mul9 b ^^^ (mul14 c ^^^ mul11 d))) :: (mul11 a ^^^ (mul13 b ^^^ (mul9 c ^^^ mul14 d))) :: invMixColumns r
  | b => b

/-- FIPS 197, 5.1.4 -/
def addRoundKey (k : Nat) (s : Bytes) : Bytes := List.zipWith (· ^^^ ·) s (beBytes 16 k)

/-- The words of the key schedule, newest first (FIPS 197, 5.2): `n` more words for a key of `nk` words; `i` is the index of the next
word and `rcon` the next round constant. -/
def expand (nk : Nat) : Nat → Nat → Nat → List Nat → List Nat
  | 0, _, _, ws => ws
  | n + 1, i, rcon, ws =>
    force (ws.headD 0) fun t =>
    let subWord (x : Nat) : Nat :=
      beNat ((beBytes 4 x).map sub) 0
    force (if i % nk = 0 then subWord ((t <<< 8) % 2 ^ 32 + t >>> 24) ^^^ (rcon <<< 24)
      else if 6 < nk ∧ i % nk = 4 then subWord t else t) fun t =>
    force (t ^^^ (ws.getD (nk - 1) 0)) fun w =>
    force (if i % nk = 0 then (xtime (UInt8.ofNat rcon)).toNat else rcon) fun rcon =>
    expand nk n (i + 1) rcon (w :: ws)

/-- four words as one number -/
def group4 : List Nat → List Nat
  | a :: b :: c :: d :: r => (((a <<< 32 + b) <<< 32 + c) <<< 32 + d) :: group4 r
  | _ => []

/-- four bytes as one word -/
def words : Bytes → List Nat
  | a :: b :: c :: d :: r => force (beNat [a, b, c, d] 0) fun w => w :: words r
  | _ => []

/-- The round keys, first round first: `nk + 7` of them for a key of `nk` words. -/
def roundKeys (key : Bytes) : List Nat :=
  let ws := words key
  let nk := ws.length
  group4 (expand nk (4 * (nk + 7) - nk) nk 1 ws.reverse).reverse

/-- FIPS 197, 5.1: all rounds but the initial key addition. -/
def encRounds : List Nat → Bytes → Bytes
  | [], s => s
  | [k], s => addRoundKey k (shiftRows (s.map sub))
  | k :: ks, s => forceBytes (addRoundKey k (mixColumns (shiftRows (s.map sub)))) fun s => encRounds ks s

/-- FIPS 197, 5.3: the rounds of `encRounds` undone, last one first. -/
def decRounds : List Nat → Bytes → Bytes
  | [], s => s
  | [k], s => (invShiftRows (addRoundKey k s)).map invSub
  | k :: ks, s => forceBytes (decRounds ks s) fun s => (invShiftRows (invMixColumns (addRoundKey k s))).map invSub

/-- AES encryption of a block -/
def enc (key block : Bytes) : Bytes :=
  match roundKeys key with
  | [] => block
  | k :: ks => encRounds ks (addRoundKey k block)

/-- AES decryption of a block -/
def dec (key block : Bytes) : Bytes :=
  match roundKeys key with
  | [] => block
  | k :: ks => addRoundKey k (decRounds ks block)

/-! ## Decryption undoes encryption -/

theorem invSub_sub (b : UInt8) : invSub (sub b) = b := by
  have h : ∀ n : Fin 256, invSub (sub (UInt8.ofNat n.val)) = UInt8.ofNat n.val := by decide +kernel
  have := h ⟨b.toNat, b.toNat_lt⟩
  simpa using this

theorem xtime_xor (a b : UInt8) : xtime (a ^^^ b) = xtime a ^^^ xtime b := by
  unfold xtime
  simp only [UInt8.shiftLeft_xor, UInt8.shiftRight_xor]
  ac_rfl

theorem xor_cancel (a b : UInt8) : a ^^^ (a ^^^ b) = b := by
  rw [← UInt8.xor_assoc, UInt8.xor_self, UInt8.zero_xor]

theorem xor_left_comm' (a b c : UInt8) : a ^^^ (b ^^^ c) = b ^^^ (a ^^^ c) := by
  rw [← UInt8.xor_assoc, UInt8.xor_comm a b, UInt8.xor_assoc]

theorem mul9_xor (a b : UInt8) : mul9 (a ^^^ b) = mul9 a ^^^ mul9 b := by
  simp only [mul9, xtime_xor]
  ac_rfl

theorem mul11_xor (a b : UInt8) : mul11 (a ^^^ b) = mul11 a ^^^ mul11 b := by
  simp only [mul11, xtime_xor]
  ac_rfl

theorem mul13_xor (a b : UInt8) : mul13 (a ^^^ b) = mul13 a ^^^ mul13 b := by
  simp only [mul13, xtime_xor]
  ac_rfl

theorem mul14_xor (a b : UInt8) : mul14 (a ^^^ b) = mul14 a ^^^ mul14 b := by
  simp only [mul14, xtime_xor]
  ac_rfl

theorem column0 (x : UInt8) : mul14 (xtime x) ^^^ (mul11 x ^^^ (mul13 x ^^^ (mul9 (xtime x) ^^^ (mul9 x)))) = x := by
  simp only [mul9, mul11, mul13, mul14]
  simp only [UInt8.xor_assoc, UInt8.xor_comm, xor_left_comm', xor_cancel, UInt8.xor_self, UInt8.xor_zero, UInt8.zero_xor]

theorem column1 (x : UInt8) : mul14 (xtime x) ^^^ (mul14 x ^^^ (mul11 (xtime x) ^^^ (mul13 x ^^^ (mul9 x)))) = 0 := by
  simp only [mul9, mul11, mul13, mul14]
  simp only [UInt8.xor_assoc, UInt8.xor_comm, xor_left_comm', xor_cancel, UInt8.xor_self, UInt8.xor_zero, UInt8.zero_xor]

theorem column2 (x : UInt8) : mul14 x ^^^ (mul11 (xtime x) ^^^ (mul11 x ^^^ (mul13 (xtime x) ^^^ (mul9 x)))) = 0 := by
  simp only [mul9, mul11, mul13, mul14]
  simp only [UInt8.xor_assoc, UInt8.xor_comm, xor_left_comm', xor_cancel, UInt8.xor_self, UInt8.xor_zero, UInt8.zero_xor]

theorem column3 (x : UInt8) : mul14 x ^^^ (mul11 x ^^^ (mul13 (xtime x) ^^^ (mul13 x ^^^ (mul9 (xtime x))))) = 0 := by
  simp only [mul9, mul11, mul13, mul14]
  simp only [UInt8.xor_assoc, UInt8.xor_comm, xor_left_comm', xor_cancel, UInt8.xor_self, UInt8.xor_zero, UInt8.zero_xor]

theorem invMix_mix (s : Bytes) : invMixColumns (mixColumns s) = s := by
  fun_induction mixColumns s with
  | case1 a b c d r ih =>
    simp only [invMixColumns, ih, mul9_xor, mul11_xor, mul13_xor, mul14_xor]
    congr 1
    · have e : (mul14 (xtime a) ^^^ (mul11 a ^^^ (mul13 a ^^^ (mul9 (xtime a) ^^^ (mul9 a))))) ^^^ (mul14 (xtime b) ^^^ (mul14 b ^^^ (mul11 (xtime b) ^^^ (mul13 b ^^^ (mul9 b))))) ^^^
        (mul14 c ^^^ (mul11 (xtime c) ^^^ (mul11 c ^^^ (mul13 (xtime c) ^^^ (mul9 c))))) ^^^ (mul14 d ^^^ (mul11 d ^^^ (mul13 (xtime d) ^^^ (mul13 d ^^^ (mul9 (xtime d)))))) = a := by
        rw [column0 a, column1 b, column2 c, column3 d]
        simp only [UInt8.xor_zero, UInt8.zero_xor]
      refine Eq.trans ?_ e
      ac_rfl
    congr 1
    · have e : (mul14 a ^^^ (mul11 a ^^^ (mul13 (xtime a) ^^^ (mul13 a ^^^ (mul9 (xtime a)))))) ^^^ (mul14 (xtime b) ^^^ (mul11 b ^^^ (mul13 b ^^^ (mul9 (xtime b) ^^^ (mul9 b))))) ^^^
        (mul14 (xtime c) ^^^ (mul14 c ^^^ (mul11 (xtime c) ^^^ (mul13 c ^^^ (mul9 c))))) ^^^ (mul14 d ^^^ (mul11 (xtime d) ^^^ (mul11 d ^^^ (mul13 (xtime d) ^^^ (mul9 d))))) = b := by
        rw [column3 a, column0 b, column1 c, column2 d]
        simp only [UInt8.xor_zero, UInt8.zero_xor]
      refine Eq.trans ?_ e
      ac_rfl
    congr 1
    · have e : (mul14 a ^^^ (mul11 (xtime a) ^^^ (mul11 a ^^^ (mul13 (xtime a) ^^^ (mul9 a))))) ^^^ (mul14 b ^^^ (mul11 b ^^^ (mul13 (xtime b) ^^^ (mul13 b ^^^ (mul9 (xtime b)))))) ^^^
        (mul14 (xtime c) ^^^ (mul11 c ^^^ (mul13 c ^^^ (mul9 (xtime c) ^^^ (mul9 c))))) ^^^ (mul14 (xtime d) ^^^ (mul14 d ^^^ (mul11 (xtime d) ^^^ (mul13 d ^^^ (mul9 d))))) = c := by
        rw [column2 a, column3 b, column0 c, column1 d]
        simp only [UInt8.xor_zero, UInt8.zero_xor]
      refine Eq.trans ?_ e
      ac_rfl
    congr 1
    · have e : (mul14 (xtime a) ^^^ (mul14 a ^^^ (mul11 (xtime a) ^^^ (mul13 a ^^^ (mul9 a))))) ^^^ (mul14 b ^^^ (mul11 (xtime b) ^^^ (mul11 b ^^^ (mul13 (xtime b) ^^^ (mul9 b))))) ^^^
        (mul14 c ^^^ (mul11 c ^^^ (mul13 (xtime c) ^^^ (mul13 c ^^^ (mul9 (xtime c)))))) ^^^ (mul14 (xtime d) ^^^ (mul11 d ^^^ (mul13 d ^^^ (mul9 (xtime d) ^^^ (mul9 d))))) = d := by
        rw [column1 a, column2 b, column3 c, column0 d]
        simp only [UInt8.xor_zero, UInt8.zero_xor]
      refine Eq.trans ?_ e
      ac_rfl
  | case2 b h =>
    unfold invMixColumns
    split
    · exact absurd rfl (h _ _ _ _ _)
    · rfl

theorem invShift_shift (s : Bytes) (h : s.length = 16) : invShiftRows (shiftRows s) = s := by
  unfold shiftRows
  split
  · rfl
  · rename_i hn
    exfalso
    match s, h with
    | [a0, a1, a2, a3, b0, b1, b2, b3, c0, c1, c2, c3, d0, d1, d2, d3], _ => exact hn _ _ _ _ _ _ _ _ _ _ _ _ _ _ _ _ rfl

theorem shiftRows_length (s : Bytes) : (shiftRows s).length = s.length := by
  unfold shiftRows
  split <;> rfl

theorem invShiftRows_length (s : Bytes) : (invShiftRows s).length = s.length := by
  unfold invShiftRows
  split <;> rfl

theorem mixColumns_length (s : Bytes) : (mixColumns s).length = s.length := by
  fun_induction mixColumns s <;> simp [*]

theorem invMixColumns_length (s : Bytes) : (invMixColumns s).length = s.length := by
  fun_induction invMixColumns s <;> simp [*]

theorem addRoundKey_length (k : Nat) (s : Bytes) (h : s.length = 16) : (addRoundKey k s).length = 16 := by
  simp [addRoundKey, h]

theorem addRoundKey_twice (k : Nat) (s : Bytes) (h : s.length = 16) : addRoundKey k (addRoundKey k s) = s := by
  unfold addRoundKey
  have hk : (beBytes 16 k).length = s.length := by simp [h]
  generalize beBytes 16 k = ks at hk
  clear h
  induction s generalizing ks with
  | nil => simp
  | cons a s ih =>
    cases ks with
    | nil => simp at hk
    | cons b ks =>
      simp only [List.zipWith_cons_cons, ih ks (by simpa using hk)]
      rw [UInt8.xor_assoc, UInt8.xor_self, UInt8.xor_zero]

theorem map_invSub_sub (s : Bytes) : (s.map sub).map invSub = s := by
  simp [invSub_sub, Function.comp_def]

theorem encRounds_length (ks : List Nat) (s : Bytes) (h : s.length = 16) : (encRounds ks s).length = 16 := by
  induction ks generalizing s with
  | nil => exact h
  | cons k ks ih =>
    cases ks with
    | nil => exact addRoundKey_length _ _ (by simpa [shiftRows_length] using h)
    | cons k' ks =>
      rw [encRounds, forceBytes_eq]
      · exact ih _ (addRoundKey_length _ _ (by simpa [shiftRows_length, mixColumns_length] using h))
      · simp

theorem decRounds_length (ks : List Nat) (s : Bytes) (h : s.length = 16) : (decRounds ks s).length = 16 := by
  induction ks with
  | nil => exact h
  | cons k ks ih =>
    cases ks with
    | nil => simpa [decRounds, invShiftRows_length] using addRoundKey_length k s h
    | cons k' ks =>
      rw [decRounds, forceBytes_eq]
      · rw [List.length_map, invShiftRows_length, invMixColumns_length]
        exact addRoundKey_length k _ ih
      · simp

theorem dec_encRounds (ks : List Nat) (s : Bytes) (h : s.length = 16) : decRounds ks (encRounds ks s) = s := by
  induction ks generalizing s with
  | nil => rfl
  | cons k ks ih =>
    cases ks with
    | nil =>
      rw [encRounds, decRounds, addRoundKey_twice _ _ (by simpa [shiftRows_length] using h), invShift_shift _ (by simpa using h),
        map_invSub_sub]
    | cons k' ks =>
      have hl : (mixColumns (shiftRows (s.map sub))).length = 16 := by simpa [shiftRows_length, mixColumns_length] using h
      rw [encRounds, forceBytes_eq, decRounds, forceBytes_eq, ih _ (addRoundKey_length _ _ hl), addRoundKey_twice _ _ hl, invMix_mix,
        invShift_shift _ (by simpa using h), map_invSub_sub]
      · simp
      · simp

theorem enc_length (key b : Bytes) (h : b.length = 16) : (enc key b).length = 16 := by
  unfold enc
  split
  · exact h
  · exact encRounds_length _ _ (addRoundKey_length _ _ h)

theorem dec_length (key b : Bytes) (h : b.length = 16) : (dec key b).length = 16 := by
  unfold dec
  split
  · exact h
  · exact addRoundKey_length _ _ (decRounds_length _ _ h)

theorem dec_enc (key b : Bytes) (h : b.length = 16) : dec key (enc key b) = b := by
  unfold enc dec
  split
  · rfl
  · rw [dec_encRounds _ _ (addRoundKey_length _ _ h), addRoundKey_twice _ _ h]

end Aes

end Axolotl.Real
