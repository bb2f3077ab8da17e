import Verif.Model.ByteUtil

/-! Helper lemmas about `Except`, slices and integer range checks. -/

namespace Axolotl

theorem bind_eq_ok {α β : Type} {x : Res α} {f : α → Res β} {b : β} :
    (x >>= f) = .ok b ↔ ∃ a, x = .ok a ∧ f a = .ok b := by
  cases x with
  | error e => simp [bind, Except.bind]
  | ok a => simp [bind, Except.bind]

theorem bind_eq_error {α β : Type} {x : Res α} {f : α → Res β} {e : Err} :
    (x >>= f) = .error e ↔ x = .error e ∨ ∃ a, x = .ok a ∧ f a = .error e := by
  cases x with
  | error e => simp [bind, Except.bind]
  | ok a => simp [bind, Except.bind]

@[simp] theorem ok_bind {α β : Type} {a : α} {f : α → Res β} : ((Except.ok a : Res α) >>= f) = f a := by
  constructor
@[simp] theorem error_bind {α β : Type} {e : Err} {f : α → Res β} :
    ((Except.error e : Res α) >>= f) = .error e := by
  constructor

theorem chkU32_ok {n : Nat} (h : n < 2 ^ 32) : chkU32 (n : Int) = .ok n := by
  unfold chkU32
  rw [if_pos (by omega)]
  simp

theorem chkU32_eq_ok {n : Int} {m : Nat} : chkU32 n = .ok m ↔ n = (m : Int) ∧ m < 2 ^ 32 := by
  unfold chkU32
  split
  · constructor
    · intro h
      injection h with h
      omega
    · intro h
      congr 1
      omega
  · constructor
    · intro h
      cases h
    · intro h
      omega

theorem chkU32_error {n : Int} {e : Err} (h : chkU32 n = .error e) : e = .valueError := by
  unfold chkU32 at h
  split at h
  · cases h
  · injection h with h; exact h.symm

theorem chkI32_eq_ok {n m : Int} : chkI32 n = .ok m ↔ n = m ∧ -(2 ^ 31) ≤ n ∧ n < 2 ^ 31 := by
  unfold chkI32
  split
  · constructor
    · intro h
      injection h with h
      omega
    · intro h
      rw [h.1]
  · constructor
    · intro h
      cases h
    · intro h
      omega

/-! Slices with in-range bounds. -/

theorem pyIdx_of_le {len n : Nat} (h : n ≤ len) : pyIdx len (n : Int) = n := by
  unfold pyIdx
  rw [if_neg (by omega)]
  simp [h]

theorem pySlice_of_le {α : Type} {l : List α} {a b : Nat} (ha : a ≤ l.length) (hb : b ≤ l.length) :
    pySlice l (a : Int) (b : Int) = (l.take b).drop a := by
  unfold pySlice
  rw [pyIdx_of_le ha, pyIdx_of_le hb]

open ByteUtil

theorem split2_append {α : Type} (x y : List α) :
    split2 (x ++ y) (x.length : Int) (y.length : Int) = (x, y) := by
  unfold split2
  have h0 : (0 : Int) = ((0 : Nat) : Int) := rfl
  have h1 : (x.length : Int) + (y.length : Int) = (((x ++ y).length : Nat) : Int) := by simp
  rw [h1, h0, pySlice_of_le (by omega) (by simp), pySlice_of_le (by simp) (by omega), List.take_length]
  simp

theorem split3_append {α : Type} (x y z : List α) :
    split3 (x ++ y ++ z) (x.length : Int) (y.length : Int) (z.length : Int) = (x, y, z) := by
  unfold split3
  have h0 : (0 : Int) = ((0 : Nat) : Int) := rfl
  have h1 : (x.length : Int) + (y.length : Int) = ((x.length + y.length : Nat) : Int) := by simp
  have h2 : ((x.length + y.length : Nat) : Int) + (z.length : Int)
      = (((x ++ y ++ z).length : Nat) : Int) := by simp; omega
  rw [h1, h2, h0, pySlice_of_le (by omega) (by simp), pySlice_of_le (by simp) (by simp),
    pySlice_of_le (by simp) (by omega), List.take_length]
  simp [List.take_append, List.drop_append]

theorem trim_eq_take {x : Bytes} {n : Nat} (h : n ≤ x.length) : trim x (n : Int) = x.take n := by
  unfold trim
  have h0 : (0 : Int) = ((0 : Nat) : Int) := rfl
  rw [h0, pySlice_of_le (by omega) h]
  simp

end Axolotl
