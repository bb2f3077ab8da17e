import Verif.Model.Protos
import Verif.Proofs.Basic

/-! The wire format reads back what it wrote. -/

namespace Axolotl.Wire

theorem decVarintF_encVarintF (f n : Nat) (rest : Bytes) (h : n < 128 ^ f) (hf : 0 < f) :
    decVarintF f (encVarintF f n ++ rest) = some (n, rest) := by
  induction f generalizing n with
  | zero => omega
  | succ f ih =>
    unfold encVarintF
    by_cases hn : n < 128
    · rw [if_pos hn]
      simp only [List.cons_append, List.nil_append, decVarintF]
      have : (UInt8.ofNat n).toNat = n := by simp; omega
      rw [this, if_pos hn]
    · rw [if_neg hn]
      simp only [List.cons_append, decVarintF]
      have h1 : (UInt8.ofNat (n % 128 + 128)).toNat = n % 128 + 128 := by simp; omega
      rw [h1, if_neg (by omega)]
      have hf' : 0 < f := by
        rcases f with _ | f
        · simp at h; omega
        · omega
      have : n / 128 < 128 ^ f := by
        rw [Nat.div_lt_iff_lt_mul (by omega)]
        rw [Nat.pow_succ] at h
        exact h
      rw [ih (n / 128) this hf']
      simp only
      congr 2
      omega

theorem decVarint_encVarint (n : Nat) (rest : Bytes) (h : n < 2 ^ 64) :
    decVarint (encVarint n ++ rest) = some (n, rest) := by
  unfold decVarint encVarint
  rw [decVarintF_encVarintF 10 n rest (by omega) (by omega)]
  simp [Nat.mod_eq_of_lt h]

theorem encVarint_ne_nil (n : Nat) : encVarint n ≠ [] := by
  unfold encVarint encVarintF
  split <;> simp

theorem decTag_enc (num wt : Nat) (rest : Bytes) (h1 : 1 ≤ num) (h2 : num < 2 ^ 29) (h3 : wt < 8) :
    decTag (encVarint (num * 8 + wt) ++ rest) = some ((num, wt), rest) := by
  unfold decTag encVarint
  rw [decVarintF_encVarintF 10 _ rest (by omega) (by omega)]
  have e1 : (num * 8 + wt) / 8 = num := by omega
  have e2 : (num * 8 + wt) % 8 = wt := by omega
  simp only [e1, e2]
  rw [if_neg (by omega)]

theorem decRaw_append (bs rest : Bytes) : decRaw bs.length (bs ++ rest) = some (bs, rest) := by
  unfold decRaw
  simp

/-- A field that the format can carry: number and integer in range, fixed sizes right. -/
def Field.Ok (f : Field) : Prop :=
  1 ≤ f.num ∧ f.num < 2 ^ 29 ∧
    match f.val with
    | .varint n => n < 2 ^ 64
    | .i64 bs => bs.length = 8
    | .len _ => True
    | .group => False
    | .i32 bs => bs.length = 4

/-- The length of a length-delimited payload (0 for the others). -/
def Field.size (f : Field) : Nat :=
  match f.val with
  | .len bs => bs.length
  | _ => 0

theorem decField_encField (f : Field) (rest : Bytes) (h : f.Ok) (hs : f.size < 2 ^ 64) :
    decField (encField f ++ rest) = some (f, rest) := by
  obtain ⟨h1, h2, h3⟩ := h
  obtain ⟨num, val⟩ := f
  cases val with
  | varint n =>
    simp only at h1 h2 h3
    have : encField ⟨num, .varint n⟩ ++ rest = encVarint (num * 8 + 0) ++ (encVarint n ++ rest) := by
      simp [encField]
    rw [this]
    unfold decField
    rw [decTag_enc num 0 _ h1 h2 (by omega)]
    simp [decVarint_encVarint n rest h3]
  | i64 bs =>
    simp only at h1 h2 h3
    have : encField ⟨num, .i64 bs⟩ ++ rest = encVarint (num * 8 + 1) ++ (bs ++ rest) := by
      simp [encField]
    rw [this]
    unfold decField
    rw [decTag_enc num 1 _ h1 h2 (by omega)]
    have := decRaw_append bs rest
    rw [h3] at this
    simp [this]
  | len bs =>
    simp only at h1 h2 h3
    have : encField ⟨num, .len bs⟩ ++ rest
        = encVarint (num * 8 + 2) ++ (encVarint bs.length ++ (bs ++ rest)) := by
      simp [encField]
    rw [this]
    unfold decField
    rw [decTag_enc num 2 _ h1 h2 (by omega)]
    simp [decVarint_encVarint bs.length _ hs, decRaw_append bs rest]
  | group => exact h3.elim
  | i32 bs =>
    simp only at h1 h2 h3
    have : encField ⟨num, .i32 bs⟩ ++ rest = encVarint (num * 8 + 5) ++ (bs ++ rest) := by
      simp [encField]
    rw [this]
    unfold decField
    rw [decTag_enc num 5 _ h1 h2 (by omega)]
    have := decRaw_append bs rest
    rw [h3] at this
    simp [this]

theorem encField_ne_nil (f : Field) : encField f ≠ [] := by
  unfold encField
  split <;> simp [encVarint_ne_nil]

theorem encField_length_pos (f : Field) : 0 < (encField f).length := by
  have := encField_ne_nil f
  cases h : encField f with
  | nil => exact absurd h this
  | cons => simp

theorem size_le_encField (f : Field) : f.size ≤ (encField f).length := by
  obtain ⟨num, val⟩ := f
  cases val <;> simp [Field.size, encField]
  omega

theorem encFields_cons (f : Field) (fs : List Field) :
    encFields (f :: fs) = encField f ++ encFields fs := by simp [encFields]

theorem encFields_append (xs ys : List Field) :
    encFields (xs ++ ys) = encFields xs ++ encFields ys := by simp [encFields]

theorem size_le_encFields {f : Field} {fs : List Field} (h : f ∈ fs) :
    f.size ≤ (encFields fs).length := by
  induction fs with
  | nil => simp at h
  | cons g gs ih =>
    rw [encFields_cons, List.length_append]
    rcases List.mem_cons.mp h with h | h
    · subst h
      have := size_le_encField f
      omega
    · have := ih h
      omega

theorem decFieldsF_encFields (fs : List Field) (fuel : Nat) (hok : ∀ f ∈ fs, f.Ok)
    (hs : ∀ f ∈ fs, f.size < 2 ^ 64) (hf : (encFields fs).length ≤ fuel) :
    decFieldsF fuel (encFields fs) = some fs := by
  induction fs generalizing fuel with
  | nil =>
    cases fuel <;> simp [encFields, decFieldsF]
  | cons f fs ih =>
    have hp := encField_length_pos f
    rw [encFields_cons] at hf ⊢
    rw [List.length_append] at hf
    cases fuel with
    | zero => omega
    | succ fuel =>
      have hd := decField_encField f (encFields fs) (hok f (by simp)) (hs f (by simp))
      cases he : encField f ++ encFields fs with
      | nil =>
        have : (encField f ++ encFields fs).length = 0 := by rw [he]; rfl
        rw [List.length_append] at this
        omega
      | cons b bs =>
        rw [decFieldsF, ← he, hd]
        simp only
        rw [ih fuel (fun g hg => hok g (by simp [hg])) (fun g hg => hs g (by simp [hg])) (by omega)]
        rfl

theorem decFields_encFields (fs : List Field) (hok : ∀ f ∈ fs, f.Ok)
    (hs : (encFields fs).length < 2 ^ 64) : decFields (encFields fs) = some fs :=
  decFieldsF_encFields fs _ hok
    (fun _ hf => Nat.lt_of_le_of_lt (size_le_encFields hf) hs) (Nat.le_refl _)

/-! Reading fields back out of a written list. -/

section
variable {α : Type}

theorem allVarint_append (n : Nat) (a b : List Field) :
    allVarint n (a ++ b) = allVarint n a ++ allVarint n b := by simp [allVarint]
theorem allLen_append (n : Nat) (a b : List Field) :
    allLen n (a ++ b) = allLen n a ++ allLen n b := by simp [allLen]
theorem allI64_append (n : Nat) (a b : List Field) :
    allI64 n (a ++ b) = allI64 n a ++ allI64 n b := by simp [allI64]

theorem allVarint_putVarint (n k : Nat) (v : Option Nat) :
    allVarint n (putVarint k v) = if k = n then v.toList else [] := by
  cases v <;> simp [allVarint, putVarint]
  split <;> simp_all
theorem allVarint_putBool (n k : Nat) (v : Option Bool) :
    allVarint n (putBool k v) = if k = n then (v.map fun b => if b then 1 else 0).toList else [] := by
  cases v with
  | none => simp [allVarint, putBool]
  | some b => by_cases h : k = n <;> simp [allVarint, putBool, h]
theorem allVarint_putI32 (n k : Nat) (v : Option Int) :
    allVarint n (putI32 k v) = if k = n then (v.map fun i => (i % 2 ^ 64).toNat).toList else [] := by
  cases v <;> simp [allVarint, putI32]
  split <;> simp_all
theorem allVarint_putBytes (n k : Nat) (v : Option Bytes) : allVarint n (putBytes k v) = [] := by
  cases v <;> simp [allVarint, putBytes]
theorem allVarint_putFixed64 (n k : Nat) (v : Option Nat) : allVarint n (putFixed64 k v) = [] := by
  cases v <;> simp [allVarint, putFixed64]
theorem allVarint_putMsg (n k : Nat) (t : α → List Field) (v : Option α) :
    allVarint n (putMsg k t v) = [] := by
  cases v <;> simp [allVarint, putMsg]
theorem allVarint_putRep (n k : Nat) (t : α → List Field) (v : List α) :
    allVarint n (putRep k t v) = [] := by
  simp [allVarint, putRep]

theorem allLen_putVarint (n k : Nat) (v : Option Nat) : allLen n (putVarint k v) = [] := by
  cases v <;> simp [allLen, putVarint]
theorem allLen_putBool (n k : Nat) (v : Option Bool) : allLen n (putBool k v) = [] := by
  cases v <;> simp [allLen, putBool]
theorem allLen_putI32 (n k : Nat) (v : Option Int) : allLen n (putI32 k v) = [] := by
  cases v <;> simp [allLen, putI32]
theorem allLen_putFixed64 (n k : Nat) (v : Option Nat) : allLen n (putFixed64 k v) = [] := by
  cases v <;> simp [allLen, putFixed64]
theorem allLen_putBytes (n k : Nat) (v : Option Bytes) :
    allLen n (putBytes k v) = if k = n then v.toList else [] := by
  cases v <;> simp [allLen, putBytes]
  split <;> simp_all
theorem allLen_putMsg (n k : Nat) (t : α → List Field) (v : Option α) :
    allLen n (putMsg k t v) = if k = n then (v.map fun a => encFields (t a)).toList else [] := by
  cases v <;> simp [allLen, putMsg]
  split <;> simp_all
theorem allLen_putRep (n k : Nat) (t : α → List Field) (v : List α) :
    allLen n (putRep k t v) = if k = n then v.map (fun a => encFields (t a)) else [] := by
  split
  · induction v with
    | nil => simp [allLen, putRep]
    | cons a v ih => simp_all [allLen, putRep]
  · induction v with
    | nil => simp [allLen, putRep]
    | cons a v ih => simp_all [allLen, putRep]

theorem allI64_putVarint (n k : Nat) (v : Option Nat) : allI64 n (putVarint k v) = [] := by
  cases v <;> simp [allI64, putVarint]
theorem allI64_putBytes (n k : Nat) (v : Option Bytes) : allI64 n (putBytes k v) = [] := by
  cases v <;> simp [allI64, putBytes]
theorem allI64_putFixed64 (n k : Nat) (v : Option Nat) :
    allI64 n (putFixed64 k v) = if k = n then (v.map (leBytes 8)).toList else [] := by
  cases v <;> simp [allI64, putFixed64]
  split <;> simp_all

end

theorem leNat_leBytes (k n : Nat) (h : n < 256 ^ k) : leNat (leBytes k n) = n := by
  induction k generalizing n with
  | zero => simp at h; simp [leBytes, leNat, h]
  | succ k ih =>
    simp only [leBytes, leNat]
    rw [ih (n / 256) (by rw [Nat.div_lt_iff_lt_mul (by omega)]; rw [Nat.pow_succ] at h; exact h)]
    have : (UInt8.ofNat (n % 256)).toNat = n % 256 := by simp
    rw [this]
    omega

theorem leBytes_length (k n : Nat) : (leBytes k n).length = k := by
  induction k generalizing n with
  | zero => rfl
  | succ k ih => simp [leBytes, ih]

theorem toI32_enc (i : Int) (h1 : -(2 ^ 31) ≤ i) (h2 : i < 2 ^ 31) : toI32 (i % 2 ^ 64).toNat = i := by
  unfold toI32
  by_cases hi : 0 ≤ i
  · have : (i % 2 ^ 64).toNat % 2 ^ 32 = i.toNat := by omega
    rw [this]
    split <;> omega
  · have : (i % 2 ^ 64).toNat % 2 ^ 32 = (i + 2 ^ 32).toNat := by omega
    rw [this]
    split <;> omega

/-! Membership in written lists, for `Field.Ok`. -/

/-- Every field of the list is encodable. -/
def AllOk (fs : List Field) : Prop := ∀ f ∈ fs, f.Ok

theorem AllOk.nil : AllOk [] := by intro f hf; simp at hf
theorem AllOk.append {a b : List Field} (ha : AllOk a) (hb : AllOk b) : AllOk (a ++ b) := by
  intro f hf
  rcases List.mem_append.mp hf with h | h
  · exact ha f h
  · exact hb f h

theorem AllOk.putBytes (n : Nat) (v : Option Bytes) (h1 : 1 ≤ n) (h2 : n < 2 ^ 29) :
    AllOk (putBytes n v) := by
  intro f hf
  cases v <;> simp [Wire.putBytes] at hf
  subst hf
  exact ⟨h1, h2, trivial⟩

/-- an optional integer below a bound -/
def OptLt (v : Option Nat) (b : Nat) : Prop := ∀ n, v = some n → n < b

theorem AllOk.putVarint (n : Nat) (v : Option Nat) (h1 : 1 ≤ n) (h2 : n < 2 ^ 29)
    (h3 : OptLt v (2 ^ 32)) : AllOk (putVarint n v) := by
  intro f hf
  cases v with
  | none => simp [Wire.putVarint] at hf
  | some m =>
    simp [Wire.putVarint] at hf
    subst hf
    have := h3 m rfl
    exact ⟨h1, h2, by simp only; omega⟩

theorem AllOk.putBool (n : Nat) (v : Option Bool) (h1 : 1 ≤ n) (h2 : n < 2 ^ 29) :
    AllOk (putBool n v) := by
  intro f hf
  cases v with
  | none => simp [Wire.putBool] at hf
  | some m =>
    simp [Wire.putBool] at hf
    subst hf
    refine ⟨h1, h2, ?_⟩
    simp only
    split <;> omega

theorem AllOk.putI32 (n : Nat) (v : Option Int) (h1 : 1 ≤ n) (h2 : n < 2 ^ 29) :
    AllOk (putI32 n v) := by
  intro f hf
  cases v with
  | none => simp [Wire.putI32] at hf
  | some m =>
    simp [Wire.putI32] at hf
    subst hf
    refine ⟨h1, h2, ?_⟩
    simp only
    omega

theorem AllOk.putFixed64 (n : Nat) (v : Option Nat) (h1 : 1 ≤ n) (h2 : n < 2 ^ 29) :
    AllOk (putFixed64 n v) := by
  intro f hf
  cases v with
  | none => simp [Wire.putFixed64] at hf
  | some m =>
    simp [Wire.putFixed64] at hf
    subst hf
    exact ⟨h1, h2, leBytes_length 8 m⟩

theorem AllOk.putMsg {α : Type} (n : Nat) (t : α → List Field) (v : Option α) (h1 : 1 ≤ n)
    (h2 : n < 2 ^ 29) : AllOk (putMsg n t v) := by
  intro f hf
  cases v with
  | none => simp [Wire.putMsg] at hf
  | some m =>
    simp [Wire.putMsg] at hf
    subst hf
    exact ⟨h1, h2, trivial⟩

theorem AllOk.putRep {α : Type} (n : Nat) (t : α → List Field) (v : List α) (h1 : 1 ≤ n)
    (h2 : n < 2 ^ 29) : AllOk (putRep n t v) := by
  intro f hf
  simp [Wire.putRep] at hf
  obtain ⟨a, _, rfl⟩ := hf
  exact ⟨h1, h2, trivial⟩

/-! Getters on written fields. -/

theorem getU32_of (n : Nat) (fs : List Field) (v : Option Nat) (h : allVarint n fs = v.toList)
    (hv : OptLt v (2 ^ 32)) : getU32 n fs = v := by
  unfold getU32
  rw [h]
  cases v with
  | none => rfl
  | some m => simp [Nat.mod_eq_of_lt (hv m rfl)]

theorem getBytes_of (n : Nat) (fs : List Field) (v : Option Bytes) (h : allLen n fs = v.toList) :
    getBytes n fs = v := by
  unfold getBytes
  rw [h]
  cases v <;> rfl

theorem getBool_of (n : Nat) (fs : List Field) (v : Option Bool)
    (h : allVarint n fs = (v.map fun b => if b then 1 else 0).toList) : getBool n fs = v := by
  unfold getBool
  rw [h]
  cases v with
  | none => rfl
  | some b => cases b <;> rfl

theorem getI32_of (n : Nat) (fs : List Field) (v : Option Int)
    (h : allVarint n fs = (v.map fun i => (i % 2 ^ 64).toNat).toList)
    (hv : ∀ i, v = some i → -(2 ^ 31) ≤ i ∧ i < 2 ^ 31) : getI32 n fs = v := by
  unfold getI32
  rw [h]
  cases v with
  | none => rfl
  | some i =>
    have := hv i rfl
    simp only [Option.map_some, Option.toList_some, List.getLast?_singleton]
    rw [toI32_enc i this.1 this.2]

theorem getFixed64_of (n : Nat) (fs : List Field) (v : Option Nat)
    (h : allI64 n fs = (v.map (leBytes 8)).toList) (hv : OptLt v (2 ^ 64)) : getFixed64 n fs = v := by
  unfold getFixed64
  rw [h]
  cases v with
  | none => rfl
  | some m =>
    have := hv m rfl
    simp only [Option.map_some, Option.toList_some, List.getLast?_singleton]
    rw [leNat_leBytes 8 m (by omega)]

theorem getMsg_of {α : Type} (n : Nat) (fs : List Field) (t : α → List Field)
    (o : List Field → Option α) (v : Option α)
    (h : allLen n fs = (v.map fun a => encFields (t a)).toList)
    (hok : ∀ a, v = some a → AllOk (t a) ∧ (encFields (t a)).length < 2 ^ 64 ∧ o (t a) = some a) :
    getMsg n o fs = some v := by
  unfold getMsg
  rw [h]
  cases v with
  | none => rfl
  | some a =>
    obtain ⟨h1, h2, h3⟩ := hok a rfl
    simp [decFields_encFields _ h1 h2, h3]

theorem getRep_of {α : Type} (n : Nat) (fs : List Field) (t : α → List Field)
    (o : List Field → Option α) (v : List α)
    (h : allLen n fs = v.map (fun a => encFields (t a)))
    (hok : ∀ a ∈ v, AllOk (t a) ∧ (encFields (t a)).length < 2 ^ 64 ∧ o (t a) = some a) :
    getRep n o fs = some v := by
  unfold getRep
  rw [h]
  clear h
  induction v with
  | nil => rfl
  | cons a v ih =>
    obtain ⟨h1, h2, h3⟩ := hok a (by simp)
    rw [List.map_cons, List.mapM_cons, ih (fun b hb => hok b (by simp [hb]))]
    simp [decFields_encFields _ h1 h2, h3]

/-- sizes of nested payloads are below the size of the whole -/
theorem putMsg_len_le {α : Type} (n : Nat) (t : α → List Field) (v : Option α) (a : α)
    (h : v = some a) : (encFields (t a)).length ≤ (encFields (putMsg n t v)).length := by
  subst h
  exact size_le_encFields (f := ⟨n, .len (encFields (t a))⟩) (by simp [putMsg])

theorem putRep_len_le {α : Type} (n : Nat) (t : α → List Field) (v : List α) (a : α)
    (h : a ∈ v) : (encFields (t a)).length ≤ (encFields (putRep n t v)).length :=
  size_le_encFields (f := ⟨n, .len (encFields (t a))⟩) (by
    simp only [putRep, List.mem_map]
    exact ⟨a, h, rfl⟩)

end Axolotl.Wire
