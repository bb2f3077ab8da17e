import Verif.Model.Messages
import Verif.Proofs.Protos

/-! Lemmas about sizes, version bytes, points and the parsers. -/

namespace Axolotl
open Wire ByteUtil

theorem encVarintF_length_le (f n : Nat) : (encVarintF f n).length ≤ f := by
  induction f generalizing n with
  | zero => simp [encVarintF]
  | succ f ih =>
    unfold encVarintF
    split
    · simp
    · have := ih (n / 128)
      simp; omega

theorem encVarint_length_le (n : Nat) : (encVarint n).length ≤ 10 := encVarintF_length_le 10 n

theorem putBytes_size_le (n : Nat) (b : Bytes) : (encFields (putBytes n (some b))).length ≤ 20 + b.length := by
  have h1 := encVarint_length_le (n * 8 + 2)
  have h2 := encVarint_length_le b.length
  simp [putBytes, encFields, encField]
  omega

theorem putBytes_none_size (n : Nat) : (encFields (putBytes n none)).length = 0 := by
  simp [putBytes, encFields]

theorem putVarint_size_le (n : Nat) (v : Option Nat) : (encFields (putVarint n v)).length ≤ 20 := by
  cases v with
  | none => simp [putVarint, encFields]
  | some m =>
    have h1 := encVarint_length_le (n * 8)
    have h2 := encVarint_length_le m
    simp [putVarint, encFields, encField]
    omega

theorem OptLt.some {n b : Nat} (h : n < b) : OptLt (some n) b := by
  intro m hm; injection hm with hm; omega

theorem OptLt.none {b : Nat} : OptLt none b := by
  intro m hm; cases hm

theorem serializePoint_length (k : ECPub) : (Curve.serializePoint k).length = k.length + 1 := by
  simp [Curve.serializePoint]

theorem serializePoint_ne_nil (k : ECPub) : Curve.serializePoint k ≠ [] := by
  simp [Curve.serializePoint]

theorem decodePoint_serializePoint {k : ECPub} (h : k.length ≤ 32) :
    Curve.decodePoint (Curve.serializePoint k) = .ok k := by
  simp [Curve.decodePoint, Curve.serializePoint, List.take_of_length_le h]

theorem serializePoint_inj {a b : ECPub} (h : Curve.serializePoint a = Curve.serializePoint b) : a = b := by
  simpa [Curve.serializePoint] using h

/-- all errors of `decodePoint` on a non-empty string are `InvalidKey` -/
theorem decodePoint_error {bs : Bytes} {e : Err} (hn : bs ≠ []) (h : Curve.decodePoint bs = .error e) :
    e = .invalidKey := by
  cases bs with
  | nil => exact absurd rfl hn
  | cons t rest =>
    simp only [Curve.decodePoint] at h
    split at h
    · cases h
    · injection h with h; exact h.symm

theorem decodePoint_error_cases {bs : Bytes} {e : Err} (h : Curve.decodePoint bs = .error e) :
    e = .invalidKey ∨ e = .indexError := by
  cases bs with
  | nil => simp only [Curve.decodePoint] at h; injection h with h; exact Or.inr h.symm
  | cons t rest => exact Or.inl (decodePoint_error (by simp) h)

theorem parseWith_error {α : Type} {o : List Field → Option α} {bs : Bytes} {e : Err}
    (h : parseWith o bs = .error e) : e = .decodeError := by
  unfold parseWith at h
  split at h
  · injection h with h; exact h.symm
  · split at h
    · injection h with h; exact h.symm
    · cases h

theorem version_high {v : Nat} (h : v = 2 ∨ v = 3) :
    highBitsToInt (intsToByteHighAndLow v CiphertextMessage.CURRENT_VERSION) = v := by
  rcases h with h | h <;> subst h <;> decide

theorem version_low :
    lowBitsToInt (intsToByteHighAndLow 3 CiphertextMessage.CURRENT_VERSION) = 3 := by decide

/-- splitting `v :: (body ++ tail)` the way the parsers do -/
theorem split3_msg (v : UInt8) (body tail : Bytes) (n : Nat) (ht : tail.length = n) :
    split3 (v :: (body ++ tail)) 1 (((v :: (body ++ tail)).length : Int) - 1 - n) n = ([v], body, tail) := by
  have := split3_append [v] body tail
  have h2 : (((v :: (body ++ tail)).length : Int) - 1 - n) = (body.length : Int) := by
    simp; omega
  rw [h2, ← ht]
  simpa using this

theorem split2_tail (body tail : Bytes) (n : Nat) (ht : tail.length = n) :
    split2 (body ++ tail) (((body ++ tail).length : Int) - n) n = (body, tail) := by
  have := split2_append body tail
  have h2 : (((body ++ tail).length : Int) - n) = (body.length : Int) := by
    simp; omega
  rw [h2, ← ht]
  exact this

theorem split2_head (v : UInt8) (body : Bytes) :
    split2 (v :: body) 1 (((v :: body).length : Int) - 1) = ([v], body) := by
  have := split2_append [v] body
  have h2 : (((v :: body).length : Int) - 1) = (body.length : Int) := by simp
  rw [h2]
  simpa using this

/-- the first byte of a non-empty string, as the parsers slice it -/
theorem pySlice_zero_one (b : UInt8) (bs : Bytes) : pySlice (b :: bs) 0 1 = [b] := by
  have h : pySlice (b :: bs) ((0 : Nat) : Int) ((1 : Nat) : Int) = ((b :: bs).take 1).drop 0 :=
    pySlice_of_le (by omega) (by simp)
  simpa using h

theorem split3_fst (b : UInt8) (bs : Bytes) (m n : Int) : (split3 (b :: bs) 1 m n).1 = [b] :=
  pySlice_zero_one b bs
theorem split2_fst (b : UInt8) (bs : Bytes) (m : Int) : (split2 (b :: bs) 1 m).1 = [b] :=
  pySlice_zero_one b bs

section
variable [C : Crypto]

theorem getMac_length (hlen : ∀ k m, (C.hmac k m).length = 32) (v : Nat) (a b : ECPub) (k s : Bytes) :
    (WhisperMessage.getMac v a b k s).length = 8 := by
  unfold WhisperMessage.getMac WhisperMessage.MAC_LENGTH
  have h8 : ((8 : Nat) : Int) = (8 : Int) := rfl
  simp only
  rw [trim_eq_take (by rw [hlen]; omega)]
  simp [hlen]

end

end Axolotl
