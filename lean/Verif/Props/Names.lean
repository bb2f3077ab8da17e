import Verif.Model.Group

/-! # C46, C52: names -/

namespace Axolotl

theorem split_first {x : Char} {a b c d : List Char} (ha : x ∉ a) (hb : x ∉ b) (h : a ++ x :: c = b ++ x :: d) :
    a = b ∧ c = d := by
  induction a generalizing b with
  | nil =>
    cases b with
    | nil => exact ⟨rfl, (List.cons.inj h).2⟩
    | cons y b =>
      have := (List.cons.inj h).1
      exact absurd (by rw [← this]; exact List.mem_cons_self ..) hb
  | cons y a ih =>
    cases b with
    | nil =>
      have := (List.cons.inj h).1
      exact absurd (by rw [this]; exact List.mem_cons_self ..) ha
    | cons z b =>
      obtain ⟨h1, h2⟩ := List.cons.inj h
      obtain ⟨h3, h4⟩ := ih (fun q => ha (List.mem_cons_of_mem _ q)) (fun q => hb (List.mem_cons_of_mem _ q)) h2
      exact ⟨by rw [h1, h3], h4⟩

theorem split_last {x : Char} {a b c d : List Char} (hc : x ∉ c) (hd : x ∉ d) (h : a ++ x :: c = b ++ x :: d) :
    a = b ∧ c = d := by
  have h := congrArg List.reverse h
  simp only [List.reverse_append, List.reverse_cons, List.append_assoc, List.singleton_append] at h
  obtain ⟨h1, h2⟩ := split_first (by simpa using hc) (by simpa using hd) h
  exact ⟨List.reverse_inj.1 h2, List.reverse_inj.1 h1⟩

theorem digits_no {n : Nat} {x : Char} (hx : x.isDigit = false) : x ∉ (toString n).toList := by
  rw [Nat.toString_eq_repr, Nat.toList_repr]
  intro h
  have := Nat.isDigit_of_mem_toDigits (by omega) (by omega) h
  rw [hx] at this
  cases this

theorem digits_inj {m n : Nat} (h : (toString m).toList = (toString n).toList) : m = n := by
  rw [Nat.toString_eq_repr, Nat.toString_eq_repr, Nat.toList_repr, Nat.toList_repr] at h
  rw [← Nat.ofDigitChars_ten_toDigits (n := m), h, Nat.ofDigitChars_ten_toDigits]

/-- **C46**, equality is equality of the parts. -/
theorem C46_eq_iff (a b : SenderKeyName) :
    a.eq b = true ↔ a.groupId = b.groupId ∧ a.sender.name = b.sender.name ∧ a.sender.deviceId = b.sender.deviceId := by
  unfold SenderKeyName.eq AxolotlAddress.eq
  simp

/-- **C46**, equal names hash equally, whatever the string hash. -/
theorem C46_equal_hash (h : String → Nat) (a b : SenderKeyName) (heq : a.eq b = true) : a.hash h = b.hash h := by
  obtain ⟨h1, h2, h3⟩ := (C46_eq_iff a b).1 heq
  unfold SenderKeyName.hash AxolotlAddress.hash
  rw [h1, h2, h3]

/-- **C46 is false** for the serialised form: two different names with the same one. -/
theorem C46_false : ∃ a b : SenderKeyName, a.serialize = b.serialize ∧ a.eq b = false :=
  ⟨⟨"a::b", ⟨"c", 1⟩⟩, ⟨"a", ⟨"b::c", 1⟩⟩, by decide +kernel, by decide +kernel⟩

/-- **C46**, the serialised form identifies the name as long as the group ids contain no colon, or the senders' names
contain none. -/
theorem C46_serialize_partial (a b : SenderKeyName)
    (hcolon : (':' ∉ a.groupId.toList ∧ ':' ∉ b.groupId.toList) ∨ (':' ∉ a.sender.name.toList ∧ ':' ∉ b.sender.name.toList))
    (h : a.serialize = b.serialize) : a = b := by
  have h := congrArg String.toList h
  unfold SenderKeyName.serialize at h
  have e : "::".toList = [':', ':'] := rfl
  simp only [String.toList_append, e] at h
  have hno : ∀ n : Nat, ':' ∉ (toString n).toList := fun n => digits_no (by decide)
  have l1 : ∀ (p q : List Char), p ++ [':', ':'] ++ q = (p ++ [':']) ++ ':' :: q := by
    intro p q; simp
  rw [l1 _ (toString a.sender.deviceId).toList, l1 _ (toString b.sender.deviceId).toList] at h
  obtain ⟨h1, h2⟩ := split_last (hno _) (hno _) h
  have h1 := List.append_cancel_right h1
  have hdev := digits_inj h2
  have hparts : a.groupId.toList = b.groupId.toList ∧ a.sender.name.toList = b.sender.name.toList := by
    rcases hcolon with ⟨q1, q2⟩ | ⟨q1, q2⟩
    · simp only [List.append_assoc, List.cons_append, List.nil_append] at h1
      obtain ⟨r1, r2⟩ := split_first q1 q2 h1
      exact ⟨r1, (List.cons.inj r2).2⟩
    · rw [l1, l1] at h1
      obtain ⟨r1, r2⟩ := split_last q1 q2 h1
      exact ⟨List.append_cancel_right r1, r2⟩
  obtain ⟨ag, an, ad⟩ := a
  obtain ⟨bg, bn, bd⟩ := b
  simp only at hdev hparts
  rw [String.toList_inj.1 hparts.1, String.toList_inj.1 hparts.2, hdev]

/-- **C52.** The printed form of an address identifies it: whatever the names contain, different addresses print
differently. -/
theorem C52_address_string (a b : AxolotlAddress) (h : a.toStr = b.toStr) : a = b := by
  have h := congrArg String.toList h
  unfold AxolotlAddress.toStr at h
  have e : ";".toList = [';'] := rfl
  simp only [String.toList_append, e, List.append_assoc, List.cons_append, List.nil_append] at h
  have hno : ∀ n : Nat, ';' ∉ (toString n).toList := fun n => digits_no (by decide)
  obtain ⟨h1, h2⟩ := split_last (hno _) (hno _) h
  obtain ⟨an, ad⟩ := a
  obtain ⟨bn, bd⟩ := b
  simp only at h1 h2
  rw [String.toList_inj.1 h1, digits_inj h2]

/-- **C52**, equality and hash of addresses agree. -/
theorem C52_equal_hash (h : String → Nat) (a b : AxolotlAddress) :
    (a.eq b = true ↔ a = b) ∧ (a.eq b = true → a.hash h = b.hash h) := by
  obtain ⟨an, ad⟩ := a
  obtain ⟨bn, bd⟩ := b
  unfold AxolotlAddress.eq AxolotlAddress.hash
  constructor
  · simp
  · intro he
    simp only [Bool.and_eq_true, beq_iff_eq] at he
    rw [he.1, he.2]

/-- A non-trivial case of the hypotheses of `C46_serialize_partial`: different names with different forms. -/
example : (':' ∉ "group".toList ∧ ':' ∉ "group2".toList) ∧
    (SenderKeyName.mk "group" ⟨"x::y", 10⟩).serialize ≠ (SenderKeyName.mk "group2" ⟨"x::y", 10⟩).serialize := by
  decide +kernel

end Axolotl
