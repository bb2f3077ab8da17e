import Verif.Spec.Group
import Verif.Proofs.Basic
import Verif.Proofs.Messages
import Verif.Proofs.Wire
import Verif.Proofs.KeySchedule
import Verif.Proofs.Contact

/-! # Lemmas about sender-key states and records -/

namespace Axolotl
section
variable [C : Crypto]
open Spec

omit C in
theorem position_eq (s : SenderKeyState) : (SenderKeyState.getSenderChainKey s).iteration = iterationOf s := by
  unfold SenderKeyState.getSenderChainKey iterationOf
  cases s.senderChainKey <;> rfl

omit C in
theorem chainKeyOf_eq (s : SenderKeyState) : (SenderKeyState.getSenderChainKey s).chainKey = chainKeyOf s := by
  unfold SenderKeyState.getSenderChainKey chainKeyOf
  cases s.senderChainKey <;> rfl

omit C in
theorem stateFor_id {r : SenderKeyRecord} {id : Nat} {s : SenderKeyStateS} (h : stateFor r id = some s) :
    s.senderKeyId.getD 0 = id := by
  have := List.find?_some h
  simpa using this

/-! ## Finding and replacing a state -/

namespace SenderKeyRecord

omit C in
theorem findState_ok {id : Nat} {l : List SenderKeyState} {i j : Nat} {s : SenderKeyState}
    (h : findState id l i = .ok (s, j)) :
    i ≤ j ∧ l.find? (fun x => x.senderKeyId.getD 0 == id) = some s ∧ l[j - i]? = some s ∧
      ∀ s', SenderKeyState.getKeyId s' = id →
        (∀ id', (l.set (j - i) s').find? (fun x => x.senderKeyId.getD 0 == id') =
          if id' = id then some s' else l.find? (fun x => x.senderKeyId.getD 0 == id')) := by
  induction l generalizing i with
  | nil => cases h
  | cons x l ih =>
    unfold findState at h
    split at h
    · rename_i hx
      have h := Except.ok.inj h
      obtain ⟨rfl, rfl⟩ := Prod.mk.inj h
      have hx' : (x.senderKeyId.getD 0 == id) = true := by
        simp only [beq_iff_eq]; exact hx
      refine ⟨Nat.le_refl _, ?_, by simp, ?_⟩
      · rw [List.find?_cons, hx']
      · intro s' hs' id'
        have hs' : s'.senderKeyId.getD 0 = id := hs'
        rw [Nat.sub_self, List.set_cons_zero, List.find?_cons, List.find?_cons]
        have hx2 : x.senderKeyId.getD 0 = id := hx
        rw [hs', hx2]
        by_cases he : id = id'
        · subst he
          simp
        · have : (id == id') = false := by simpa using he
          rw [this]
          rw [if_neg (fun q => he q.symm)]
    · rename_i hx
      obtain ⟨h1, h2, h3, h4⟩ := ih h
      have hx2 : x.senderKeyId.getD 0 ≠ id := hx
      have hx' : (x.senderKeyId.getD 0 == id) = false := by simpa using hx2
      have hj : j - i = (j - (i + 1)) + 1 := by omega
      refine ⟨by omega, ?_, ?_, ?_⟩
      · rw [List.find?_cons, hx']; exact h2
      · rw [hj, List.getElem?_cons_succ]; exact h3
      · intro s' hs' id'
        rw [hj, List.set_cons_succ, List.find?_cons, List.find?_cons, h4 s' hs']
        by_cases he : id' = id
        · subst he
          rw [hx', if_pos rfl]
        · rw [if_neg he, if_neg he]

omit C in
theorem findState_error {id : Nat} {l : List SenderKeyState} {i : Nat} {e : Err}
    (h : findState id l i = .error e) :
    e = .invalidKeyId ∧ l.find? (fun x => x.senderKeyId.getD 0 == id) = none := by
  induction l generalizing i with
  | nil => exact ⟨(Except.error.inj h).symm, rfl⟩
  | cons x l ih =>
    unfold findState at h
    split at h
    · cases h
    · rename_i hx
      have hx2 : x.senderKeyId.getD 0 ≠ id := hx
      have hx' : (x.senderKeyId.getD 0 == id) = false := by simpa using hx2
      obtain ⟨h1, h2⟩ := ih h
      exact ⟨h1, by rw [List.find?_cons, hx']; exact h2⟩

omit C in
theorem getStateById_ok {r : SenderKeyRecord} {id j : Nat} {s : SenderKeyState}
    (h : r.getStateById id = .ok (s, j)) :
    stateFor r id = some s ∧ r.senderKeyStates[j]? = some s ∧
      ∀ s', SenderKeyState.getKeyId s' = id →
        ∀ id', stateFor (r.replace j s') id' = if id' = id then some s' else stateFor r id' := by
  obtain ⟨_, h2, h3, h4⟩ := findState_ok h
  exact ⟨h2, h3, h4⟩

omit C in
theorem getStateById_some {r : SenderKeyRecord} {id : Nat} {s : SenderKeyState}
    (h : stateFor r id = some s) : ∃ j, r.getStateById id = .ok (s, j) := by
  cases hg : r.getStateById id with
  | error e =>
    have := (findState_error hg).2
    unfold stateFor at h
    rw [this] at h; cases h
  | ok p =>
    obtain ⟨s', j⟩ := p
    have := (getStateById_ok hg).1
    rw [this] at h
    injection h with h
    subst h
    exact ⟨j, rfl⟩

omit C in
theorem getStateById_none {r : SenderKeyRecord} {id : Nat} (h : stateFor r id = none) :
    r.getStateById id = .error .invalidKeyId := by
  cases hg : r.getStateById id with
  | error e => rw [(findState_error hg).1]
  | ok p =>
    obtain ⟨s', j⟩ := p
    have := (getStateById_ok hg).1
    rw [this] at h; cases h

omit C in
theorem getFirstState_ok {r : SenderKeyRecord} {s : SenderKeyState} :
    r.getFirstState = .ok s ↔ sendingState r = some s := by
  unfold getFirstState sendingState
  cases r.senderKeyStates with
  | nil => simp
  | cons x l => simp

omit C in
/-- The sending state is found under its own id. -/
theorem sendingState_stateFor {r : SenderKeyRecord} {s : SenderKeyState} (h : sendingState r = some s) :
    stateFor r (s.senderKeyId.getD 0) = some s := by
  unfold sendingState at h
  unfold stateFor
  cases hl : r.senderKeyStates with
  | nil => rw [hl] at h; cases h
  | cons x l =>
    rw [hl] at h
    injection h with h
    subst h
    simp

omit C in
theorem getStateById_first {r : SenderKeyRecord} {s : SenderKeyState} (h : sendingState r = some s) :
    r.getStateById (SenderKeyState.getKeyId s) = .ok (s, 0) := by
  unfold sendingState at h
  unfold getStateById
  cases hl : r.senderKeyStates with
  | nil => rw [hl] at h; cases h
  | cons x l =>
    rw [hl] at h
    injection h with h
    subst h
    unfold findState
    rw [if_pos rfl]

omit C in
theorem sendingState_replace {r : SenderKeyRecord} {id j : Nat} {s s' : SenderKeyState}
    (h : r.getStateById id = .ok (s, j)) :
    sendingState (r.replace j s') =
      if (sendingState r).map SenderKeyState.getKeyId = some id then some s' else sendingState r := by
  unfold getStateById at h
  unfold sendingState replace
  simp only
  cases hl : r.senderKeyStates with
  | nil => rw [hl] at h; cases h
  | cons x l =>
    rw [hl] at h
    unfold findState at h
    split at h
    · rename_i hx
      obtain ⟨rfl, rfl⟩ := Prod.mk.inj (Except.ok.inj h)
      simp [hx]
    · rename_i hx
      have := (findState_ok h).1
      have hj : j = (j - 1) + 1 := by omega
      rw [hj]
      simp [hx]

end SenderKeyRecord

/-! ## Chain steps -/

theorem chainAt_succ (k : Bytes) (n : Nat) : chainAt (C.hmac k [0x02]) n = chainAt k (n + 1) := by
  have := chainAt_add k 1 n
  rw [Nat.add_comm] at this
  exact this

/-- The message keys stored when `n` iterations are skipped. -/
def skippedSeeds (c : SenderChainKey) (n : Nat) : List SenderSeedS :=
  (List.range n).map fun j =>
    { iteration := some (c.iteration + j), seed := some (C.hmac (chainAt c.chainKey j) [0x01]) }

namespace GroupCipher

theorem skippedSeeds_succ (c : SenderChainKey) (n : Nat) :
    skippedSeeds c (n + 1) =
      { iteration := some c.iteration, seed := some (C.hmac c.chainKey [0x01]) } :: skippedSeeds c.getNext n := by
  unfold skippedSeeds
  rw [List.range_succ_eq_map, List.map_cons, List.map_map]
  congr 1
  apply List.map_congr_left
  intro j _
  simp only [Function.comp, SenderChainKey.getNext, SenderChainKey.CHAIN_KEY_SEED]
  rw [chainAt_succ]
  congr 2
  omega

theorem skipLoop_eq (n : Nat) (s : SenderKeyState) (c : SenderChainKey) (h : c.iteration + n ≤ 2 ^ 32) :
    skipLoop n s c = .ok ({ s with senderMessageKeys := s.senderMessageKeys ++ skippedSeeds c n },
      ⟨c.iteration + n, chainAt c.chainKey n⟩) := by
  induction n generalizing s c with
  | zero => simp [skipLoop, skippedSeeds, chainAt]
  | succ n ih =>
    unfold skipLoop SenderKeyState.addSenderMessageKey
    have : c.getSenderMessageKey.iteration = c.iteration := rfl
    rw [this, chkU32_ok (by omega)]
    simp only [ok_bind]
    rw [ih _ _ (by show c.iteration + 1 + n ≤ _; omega)]
    rw [skippedSeeds_succ]
    have e1 : c.getSenderMessageKey.seed = C.hmac c.chainKey [0x01] := rfl
    have e2 : c.getNext.chainKey = C.hmac c.chainKey [0x02] := rfl
    have e3 : c.getNext.iteration = c.iteration + 1 := rfl
    rw [e1, e2, e3, chainAt_succ]
    simp
    omega

/-- A state after its chain has been moved to just behind iteration `i`. -/
def moved (s : SenderKeyState) (i : Nat) : SenderKeyState :=
  { s with
    senderChainKey := some { iteration := some (i + 1), seed := some (chainAt (chainKeyOf s) (i + 1 - iterationOf s)) }
    senderMessageKeys := s.senderMessageKeys ++ skippedSeeds (SenderKeyState.getSenderChainKey s) (i - iterationOf s) }

/-- What `getSenderKey` returns. -/
theorem getSenderKey_old {s : SenderKeyState} {i : Nat} (h : i < iterationOf s) :
    getSenderKey s i =
      match SenderKeyState.takeKey i s.senderMessageKeys with
      | some (k, rest) => .ok (SenderMessageKey.mk' i (k.seed.getD []), { s with senderMessageKeys := rest })
      | none => .error .duplicateMessage := by
  unfold getSenderKey
  simp only [position_eq]
  rw [if_pos h]
  have htake : ∀ l : List SenderSeedS, SenderKeyState.takeKey i l = none ↔
      (l.any fun k => k.iteration.getD 0 == i) = false := by
    intro l
    induction l with
    | nil => simp [SenderKeyState.takeKey]
    | cons x l ih =>
      unfold SenderKeyState.takeKey
      split
      · rename_i hx; simp [hx]
      · rename_i hx; simp [hx, ih]
  have hit : ∀ (l : List SenderSeedS) k rest, SenderKeyState.takeKey i l = some (k, rest) → k.iteration.getD 0 = i := by
    intro l
    induction l with
    | nil => intro k rest hk; cases hk
    | cons x l ih =>
      intro k rest hk
      unfold SenderKeyState.takeKey at hk
      split at hk
      · rename_i hx
        injection hk with hk
        rw [← (Prod.mk.inj hk).1]; exact hx
      · cases ht : SenderKeyState.takeKey i l with
        | none => rw [ht] at hk; cases hk
        | some p =>
          rw [ht] at hk
          injection hk with hk
          have := (Prod.mk.inj hk).1
          rw [← this]
          exact ih p.1 p.2 ht
  cases hk : SenderKeyState.takeKey i s.senderMessageKeys with
  | none =>
    have := (htake _).1 hk
    unfold SenderKeyState.hasSenderMessageKey
    rw [this]
    rfl
  | some p =>
    obtain ⟨k, rest⟩ := p
    have hany : SenderKeyState.hasSenderMessageKey s i = true := by
      unfold SenderKeyState.hasSenderMessageKey
      cases ha : s.senderMessageKeys.any fun k => k.iteration.getD 0 == i with
      | true => rfl
      | false =>
        rw [(htake _).2 ha] at hk; cases hk
    rw [hany]
    unfold SenderKeyState.removeSenderMessageKey
    simp only [hk, if_true]
    rw [hit _ _ _ hk]

theorem getSenderKey_new {s : SenderKeyState} {i : Nat} (h : iterationOf s ≤ i) (hi : i + 1 < 2 ^ 32) :
    getSenderKey s i =
      .ok (SenderMessageKey.mk' i (C.hmac (chainAt (chainKeyOf s) (i - iterationOf s)) [0x01]), moved s i) := by
  unfold getSenderKey
  simp only [position_eq]
  rw [if_neg (by omega), if_neg (by omega)]
  rw [skipLoop_eq _ _ _ (by rw [position_eq]; omega)]
  simp only [ok_bind]
  unfold SenderKeyState.setSenderChainKey
  simp only [SenderChainKey.getNext, position_eq, chainKeyOf_eq]
  have : iterationOf s + (i - iterationOf s) = i := by omega
  rw [this, chkU32_ok hi]
  simp only [ok_bind]
  unfold moved SenderChainKey.getSenderMessageKey
  have e : i + 1 - iterationOf s = (i - iterationOf s) + 1 := by omega
  rw [e]
  rfl

theorem getSenderKey_last {s : SenderKeyState} {i : Nat} (h : iterationOf s ≤ i) (hi : 2 ^ 32 ≤ i + 1) :
    getSenderKey s i = .error .valueError := by
  have hchk : ∀ n : Nat, 2 ^ 32 ≤ n → chkU32 (n : Int) = .error .valueError := by
    intro n hn
    unfold chkU32
    rw [if_neg (by omega)]
  have hloop : ∀ (n : Nat) (s : SenderKeyState) (c : SenderChainKey), 2 ^ 32 ≤ c.iteration + n + 1 →
      (skipLoop n s c = .error .valueError ∨ ∃ s' c', skipLoop n s c = .ok (s', c') ∧ 2 ^ 32 ≤ c'.iteration + 1) := by
    intro n
    induction n with
    | zero => intro s c h; right; exact ⟨s, c, rfl, by omega⟩
    | succ n ih =>
      intro s c h
      unfold skipLoop SenderKeyState.addSenderMessageKey
      have : c.getSenderMessageKey.iteration = c.iteration := rfl
      rw [this]
      by_cases hc : c.iteration < 2 ^ 32
      · rw [chkU32_ok hc]
        simp only [ok_bind]
        apply ih
        show 2 ^ 32 ≤ c.iteration + 1 + n + 1
        omega
      · left
        rw [hchk _ (by omega)]
        rfl
  unfold getSenderKey
  simp only [position_eq]
  rw [if_neg (by omega), if_neg (by omega)]
  rcases hloop (i - iterationOf s) s (SenderKeyState.getSenderChainKey s) (by rw [position_eq]; omega) with hl | hl
  · rw [hl]; rfl
  · obtain ⟨s', c', hl, hc⟩ := hl
    rw [hl]
    simp only [ok_bind]
    unfold SenderKeyState.setSenderChainKey
    have : c'.getNext.iteration = c'.iteration + 1 := rfl
    rw [this, hchk _ hc]
    rfl

end GroupCipher
end
end Axolotl
