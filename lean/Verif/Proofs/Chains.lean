import Verif.Model.SessionCipher
import Verif.Proofs.Messages

/-! Lemmas about finding and updating receiver chains. -/

namespace Axolotl
namespace SessionState

/-- Replace the receiver chain at position `j`. -/
abbrev setChainAt (s : SessionState) (j : Nat) (c : ChainS) : SessionState :=
  { s with receiverChains := s.receiverChains.set j c }

/-- Add stored message keys to a chain. -/
abbrev addKeys (c : ChainS) (l : List MessageKeyS) : ChainS := { c with messageKeys := c.messageKeys ++ l }

theorem findChain_some {key : ECPub} : ∀ {cs : List ChainS} {i : Nat} {c : ChainS} {j : Nat},
    findChain key cs i = .ok (some (c, j)) →
    i ≤ j ∧ cs[j - i]? = some c ∧ Curve.decodePoint (c.senderRatchetKey.getD []) = .ok key := by
  intro cs
  induction cs with
  | nil => intro i c j h; simp [findChain] at h
  | cons a cs ih =>
    intro i c j h
    unfold findChain at h
    obtain ⟨k, hk, h⟩ := bind_eq_ok.1 h
    split at h
    · rename_i hkk
      injection h with h; injection h with h; injection h with h1 h2
      subst h1; subst h2
      refine ⟨Nat.le_refl _, by simp, by rw [hk, hkk]⟩
    · obtain ⟨h1, h2, h3⟩ := ih h
      refine ⟨by omega, ?_, h3⟩
      have : j - i = (j - (i + 1)) + 1 := by omega
      rw [this]
      simpa using h2

/-- Replacing the found chain by one with the same ratchet key: it is found again at the same place. -/
theorem findChain_set {key : ECPub} {c' : ChainS} : ∀ {cs : List ChainS} {i : Nat} {c : ChainS} {j : Nat},
    findChain key cs i = .ok (some (c, j)) → c'.senderRatchetKey = c.senderRatchetKey →
    findChain key (cs.set (j - i) c') i = .ok (some (c', j)) := by
  intro cs
  induction cs with
  | nil => intro i c j h; simp [findChain] at h
  | cons a cs ih =>
    intro i c j h hc
    have h0 := findChain_some h
    unfold findChain at h
    obtain ⟨k, hk, h⟩ := bind_eq_ok.1 h
    split at h
    · rename_i hkk
      injection h with h; injection h with h; injection h with h1 h2
      subst h1; subst h2
      simp only [Nat.sub_self, List.set_cons_zero]
      unfold findChain
      rw [hc, hk]
      simp only [ok_bind]
      rw [if_pos hkk]
    · rename_i hkk
      have h1 := findChain_some h
      have : j - i = (j - (i + 1)) + 1 := by omega
      rw [this, List.set_cons_succ]
      unfold findChain
      rw [hk]
      simp only [ok_bind]
      rw [if_neg hkk]
      exact ih h hc

/-- Replacing a chain by one with the same ratchet key changes nothing for other keys, except the
content of a chain found at that very place. -/
theorem findChain_set_ne {key : ECPub} {c' : ChainS} : ∀ {cs : List ChainS} {i n : Nat} {a : ChainS},
    cs[n]? = some a → c'.senderRatchetKey = a.senderRatchetKey →
    Curve.decodePoint (a.senderRatchetKey.getD []) ≠ .ok key →
    findChain key (cs.set n c') i = findChain key cs i := by
  intro cs
  induction cs with
  | nil => intro i n a h; simp at h
  | cons b cs ih =>
    intro i n a h hc hk
    cases n with
    | zero =>
      simp only [List.getElem?_cons_zero, Option.some.injEq] at h
      subst h
      simp only [List.set_cons_zero]
      unfold findChain
      rw [hc]
      cases hd : Curve.decodePoint (b.senderRatchetKey.getD []) with
      | error e => rfl
      | ok k =>
        simp only [ok_bind]
        rw [if_neg (by intro h'; exact hk (by rw [hd, h'])), if_neg (by intro h'; exact hk (by rw [hd, h']))]
    | succ n =>
      simp only [List.getElem?_cons_succ] at h
      simp only [List.set_cons_succ]
      unfold findChain
      rw [ih h hc hk]

theorem findChain_append_none {key : ECPub} {c : ChainS} : ∀ {cs : List ChainS} {i : Nat},
    findChain key cs i = .ok none → Curve.decodePoint (c.senderRatchetKey.getD []) = .ok key →
    findChain key (cs ++ [c]) i = .ok (some (c, i + cs.length)) := by
  intro cs
  induction cs with
  | nil =>
    intro i _ hc
    simp [findChain, hc]
  | cons a cs ih =>
    intro i h hc
    unfold findChain at h
    obtain ⟨k, hk, h⟩ := bind_eq_ok.1 h
    split at h
    · cases h
    · rename_i hne
      rw [List.cons_append]
      unfold findChain
      rw [hk]
      simp only [ok_bind]
      rw [if_neg hne, ih h hc]
      have hidx : i + 1 + cs.length = i + (a :: cs).length := by simp only [List.length_cons]; omega
      rw [hidx]

theorem findChain_none_tail {key : ECPub} {a : ChainS} {cs : List ChainS} {i : Nat}
    (h : findChain key (a :: cs) i = .ok none) : findChain key cs (i + 1) = .ok none := by
  unfold findChain at h
  obtain ⟨k, hk, h⟩ := bind_eq_ok.1 h
  split at h
  · cases h
  · exact h

/-- The start index only shifts the reported position. -/
theorem findChain_shift {key : ECPub} : ∀ {cs : List ChainS} (i d : Nat),
    findChain key cs (i + d) = (findChain key cs i).map (fun o => o.map fun p => (p.1, p.2 + d)) := by
  intro cs
  induction cs with
  | nil => intro i d; rfl
  | cons a cs ih =>
    intro i d
    unfold findChain
    cases hd : Curve.decodePoint (a.senderRatchetKey.getD []) with
    | error e => rfl
    | ok k =>
      simp only [ok_bind]
      split
      · rfl
      · have : i + d + 1 = (i + 1) + d := by omega
        rw [this, ih]

end SessionState

/-! ## Chain keys -/

section
variable [C : Crypto]

/-- The chain key after `n` steps. -/
def ChainKey.iter (c : ChainKey) : Nat → ChainKey
  | 0 => c
  | n + 1 => (c.iter n).getNextChainKey

theorem ChainKey.iter_index (c : ChainKey) (n : Nat) : (c.iter n).index = c.index + n := by
  induction n with
  | zero => rfl
  | succ n ih => simp [ChainKey.iter, ChainKey.getNextChainKey, ih]; omega

theorem ChainKey.iter_kdf (c : ChainKey) (n : Nat) : (c.iter n).kdf = c.kdf := by
  induction n with
  | zero => rfl
  | succ n ih => simp [ChainKey.iter, ChainKey.getNextChainKey, ih]

theorem ChainKey.iter_next (c : ChainKey) (n : Nat) : c.getNextChainKey.iter n = c.iter (n + 1) := by
  induction n with
  | zero => rfl
  | succ n ih => show (c.getNextChainKey.iter n).getNextChainKey = _; rw [ih]; rfl

theorem ChainKey.iter_add (c : ChainKey) (m n : Nat) : (c.iter m).iter n = c.iter (m + n) := by
  induction n with
  | zero => rfl
  | succ n ih => show ((c.iter m).iter n).getNextChainKey = _; rw [ih]; rfl

theorem ChainKey.getMessageKeys_counter (c : ChainKey) : c.getMessageKeys.counter = c.index := rfl

/-- The stored form of the message keys of a chain key. -/
def entryOf (c : ChainKey) : MessageKeyS :=
  { cipherKey := some c.getMessageKeys.cipherKey, macKey := some c.getMessageKeys.macKey,
    index := some c.index, iv := some c.getMessageKeys.iv }

theorem messageKeysOf_entryOf (c : ChainKey) : SessionState.messageKeysOf (entryOf c) = c.getMessageKeys := rfl

/-- The entries stored when `n` messages from chain key `c` on are skipped. -/
def skipped (c : ChainKey) (n : Nat) : List MessageKeyS := (List.range n).map fun i => entryOf (c.iter i)

theorem skipped_succ (c : ChainKey) (n : Nat) : skipped c (n + 1) = entryOf c :: skipped c.getNextChainKey n := by
  unfold skipped
  rw [List.range_succ_eq_map, List.map_cons, List.map_map]
  congr 1
  apply List.map_congr_left
  intro i _
  simp only [Function.comp, Nat.succ_eq_add_one]
  rw [← ChainKey.iter_next]

theorem skipped_length (c : ChainKey) (n : Nat) : (skipped c n).length = n := by simp [skipped]

/-- Membership of an index among the skipped entries. -/
theorem skipped_any (c : ChainKey) (n k : Nat) :
    (skipped c n).any (fun e => e.index.getD 0 == k) = decide (c.index ≤ k ∧ k < c.index + n) := by
  rw [Bool.eq_iff_iff]
  simp only [List.any_eq_true, skipped, List.mem_map, List.mem_range, beq_iff_eq, decide_eq_true_eq]
  constructor
  · rintro ⟨e, ⟨i, hi, rfl⟩, he⟩
    simp only [entryOf, Option.getD_some, ChainKey.iter_index] at he
    omega
  · intro h
    refine ⟨entryOf (c.iter (k - c.index)), ⟨k - c.index, by omega, rfl⟩, ?_⟩
    simp only [entryOf, Option.getD_some, ChainKey.iter_index]
    omega

namespace SessionCipher
open SessionState

/-- Closed form of the skipping loop on a state whose chain is at position `j`. -/
theorem skipLoop_eq {eph : ECPub} : ∀ (n : Nat) {s : SessionState} {ck : ChainKey} {c : ChainS} {j : Nat},
    getReceiverChain s eph = .ok (some (c, j)) → ck.index + n ≤ 2 ^ 32 →
    skipLoop eph n s ck = .ok (setChainAt s j (addKeys c (skipped ck n)), ck.iter n) := by
  intro n
  induction n with
  | zero =>
    intro s ck c j h _
    have h' := findChain_some h
    simp only [Nat.sub_zero] at h'
    have : s.receiverChains.set j (addKeys c (skipped ck 0)) = s.receiverChains := by
      simp only [addKeys, skipped, List.range_zero, List.map_nil, List.append_nil]
      obtain ⟨hj, hj'⟩ := List.getElem?_eq_some_iff.1 h'.2.1
      rw [← hj']
      exact List.set_getElem_self hj
    simp only [setChainAt]
    rw [this]
    rfl
  | succ n ih =>
    intro s ck c j h hb
    unfold skipLoop
    have hset : setMessageKeys s eph ck.getMessageKeys = .ok
        (setChainAt s j (addKeys c [entryOf ck])) := by
      unfold setMessageKeys
      rw [ChainKey.getMessageKeys_counter, chkU32_ok (by omega)]
      simp only [ok_bind]
      unfold modifyChain
      rw [h]
      rfl
    rw [hset]
    simp only [ok_bind]
    have hfind : getReceiverChain (setChainAt s j (addKeys c [entryOf ck])) eph
        = .ok (some (addKeys c [entryOf ck], j)) := by
      exact findChain_set (c' := addKeys c [entryOf ck]) h rfl
    rw [ih hfind (by simp only [ChainKey.getNextChainKey]; omega)]
    simp only [setChainAt, addKeys, List.set_set, ChainKey.iter_next, skipped_succ, List.append_assoc,
      List.singleton_append]

/-- If the loop succeeds on a found chain the counters fit. -/
theorem skipLoop_bound {eph : ECPub} : ∀ (n : Nat) {s : SessionState} {ck : ChainKey} {r : SessionState × ChainKey},
    skipLoop eph n s ck = .ok r → n = 0 ∨ ck.index + n ≤ 2 ^ 32 := by
  intro n
  induction n with
  | zero => intros; exact Or.inl rfl
  | succ n ih =>
    intro s ck r h
    unfold skipLoop at h
    obtain ⟨s1, h1, h2⟩ := bind_eq_ok.1 h
    unfold setMessageKeys at h1
    obtain ⟨i, hi, h1⟩ := bind_eq_ok.1 h1
    rw [ChainKey.getMessageKeys_counter, chkU32_eq_ok] at hi
    right
    rcases ih h2 with h3 | h3
    · omega
    · simp only [ChainKey.getNextChainKey] at h3; omega

end SessionCipher
end
end Axolotl
