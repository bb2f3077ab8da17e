import Verif.Spec.Forge
import Verif.Proofs.Derive

/-! What an attacker can derive from a leak and the MACs of messages. -/

namespace Axolotl
open Spec Spec.Term

namespace Spec.Term

theorem chain_steps (s : Term) (j k : Nat) : chain s j k = stepsFrom (chain s j 0) k := by
  induction k with
  | zero => rfl
  | succ k ih =>
    show Term.hmac (chain s j k) (.bytes [2]) = .hmac (stepsFrom (chain s j 0) k) (.bytes [2])
    rw [ih]

theorem macKey_from (s : Term) (j k : Nat) : macKey s j k = macFrom (chain s j 0) k := by
  unfold macKey macFrom material
  rw [← chain_steps]

end Spec.Term

variable {l : Leak} {spk : KeyName} {ot : Option KeyName} {tags : Bool → Nat → Nat → Bytes → Prop}

/-- The keys under which an attacker may be given an HMAC. -/
inductive UsedKey (s : Term) : Term → Prop
  | epoch (j : Nat) : UsedKey s (epoch s j)
  | chain (j k : Nat) : UsedKey s (chain s j k)
  | material (j k : Nat) : UsedKey s (material s j k)
  | macKey (j k : Nat) : UsedKey s (macKey s j k)

/-- The HMACs the attacker is given. -/
inductive Shown (l : Leak) (s : Term) (tags : Bool → Nat → Nat → Bytes → Prop) : Term → Prop
  | root {j : Nat} : l.roots j → Shown l s tags (.root s j)
  | chain {j k : Nat} : l.chains j k → Shown l s tags (.chain s j k)
  | cipherKey {j k : Nat} : l.messages j k → Shown l s tags (.cipherKey s j k)
  | macKey {j k : Nat} : l.messages j k → Shown l s tags (.macKey s j k)
  | iv {j k : Nat} : l.messages j k → Shown l s tags (.iv s j k)
  | tag {b : Bool} {j k : Nat} {body : Bytes} : tags b j k body → Shown l s tags (.tag s b j k body)

/-- What can be known of the parts of a term. -/
def Learnt (l : Leak) (s : Term) (tags : Bool → Nat → Nat → Bytes → Prop) : Term → Prop
  | .bytes _ => True
  | .pub _ => True
  | .priv x => l.owns x
  | .agree x y => l.owns x ∨ l.owns y
  | .join t u => Learnt l s tags t ∧ Learnt l s tags u
  | .hmac k m => Shown l s tags (.hmac k m) ∨ (Learnt l s tags k ∧ Learnt l s tags m)
  | .enc k v m => Learnt l s tags k ∧ Learnt l s tags v ∧ Learnt l s tags m
  | .text _ _ => False

theorem shown_used {k m : Term} (h : Shown l (setup spk ot) tags (.hmac k m)) : UsedKey (setup spk ot) k := by
  generalize e : Term.hmac k m = t at h
  cases h with
  | @root j h => obtain ⟨rfl, _⟩ := Term.hmac.inj (show Term.hmac k m = .hmac _ _ from e); exact .epoch j
  | @chain j c h =>
    cases c with
    | zero => obtain ⟨rfl, _⟩ := Term.hmac.inj (show Term.hmac k m = .hmac _ _ from e); exact .epoch j
    | succ c => obtain ⟨rfl, _⟩ := Term.hmac.inj (show Term.hmac k m = .hmac _ _ from e); exact .chain j c
  | @cipherKey j c h => obtain ⟨rfl, _⟩ := Term.hmac.inj (show Term.hmac k m = .hmac _ _ from e); exact .material j c
  | @macKey j c h => obtain ⟨rfl, _⟩ := Term.hmac.inj (show Term.hmac k m = .hmac _ _ from e); exact .material j c
  | @iv j c h => obtain ⟨rfl, _⟩ := Term.hmac.inj (show Term.hmac k m = .hmac _ _ from e); exact .material j c
  | @tag b j c body h => obtain ⟨rfl, _⟩ := Term.hmac.inj (show Term.hmac k m = .hmac _ _ from e); exact .macKey j c

/-! ## The terms of the conversation -/

theorem epoch_ne_chain {i j k : Nat} : epoch (setup spk ot) i ≠ chain (setup spk ot) j k := by
  intro e
  obtain ⟨t, u, hs⟩ := setup_join spk ot
  cases i <;> cases k <;> simp [epoch, chain, block_succ, block_zero, hs] at e

theorem epoch_ne_material {i j k : Nat} : epoch (setup spk ot) i ≠ material (setup spk ot) j k := by
  intro e
  obtain ⟨t, u, hs⟩ := setup_join spk ot
  cases i <;> simp [epoch, material, hs] at e

theorem epoch_ne_macKey {i j k : Nat} : epoch (setup spk ot) i ≠ macKey (setup spk ot) j k := by
  intro e
  obtain ⟨t, u, hs⟩ := setup_join spk ot
  cases i <;> simp [epoch, macKey, block_succ, block_zero, hs] at e

theorem chain_ne_material {i c j k : Nat} : chain (setup spk ot) i c ≠ material (setup spk ot) j k := by
  intro e
  cases c <;> simp [chain, material, block_succ] at e

theorem chain_ne_macKey {i c j k : Nat} : chain (setup spk ot) i c ≠ macKey (setup spk ot) j k := by
  intro e
  cases c with
  | zero =>
    simp only [chain, macKey, block_succ, hmac.injEq, join.injEq, bytes.injEq] at e
    exact info_ne i e.2.2.1
  | succ c => simp [chain, macKey, block_succ] at e

theorem material_ne_macKey {i c j k : Nat} : material (setup spk ot) i c ≠ macKey (setup spk ot) j k := by
  intro e
  simp [material, macKey, block_succ] at e

theorem macKey_inj {i j k c : Nat} (h : macKey (setup spk ot) i k = macKey (setup spk ot) j c) : i = j ∧ k = c := by
  unfold macKey at h
  rw [block_succ, block_succ] at h
  exact material_inj (hmac.inj h).1

/-- Of the HMACs under a MAC key, only those of messages are given. -/
theorem shown_macKey {j k : Nat} {m : Term} (h : Shown l (setup spk ot) tags (.hmac (macKey (setup spk ot) j k) m)) :
    ∃ b body, tags b j k body ∧ Term.hmac (macKey (setup spk ot) j k) m = .tag (setup spk ot) b j k body := by
  generalize e : Term.hmac (macKey (setup spk ot) j k) m = t at h
  cases h with
  | @root j' h => exact absurd (hmac.inj (show _ = Term.hmac _ _ from e)).1.symm epoch_ne_macKey
  | @chain j' c h =>
    cases c with
    | zero => exact absurd (hmac.inj (show _ = Term.hmac _ _ from e)).1.symm epoch_ne_macKey
    | succ c => exact absurd (hmac.inj (show _ = Term.hmac _ _ from e)).1.symm chain_ne_macKey
  | @cipherKey j' c h => exact absurd (hmac.inj (show _ = Term.hmac _ _ from e)).1.symm material_ne_macKey
  | @macKey j' c h => exact absurd (hmac.inj (show _ = Term.hmac _ _ from e)).1.symm material_ne_macKey
  | @iv j' c h => exact absurd (hmac.inj (show _ = Term.hmac _ _ from e)).1.symm material_ne_macKey
  | @tag b j' c body h =>
    obtain ⟨rfl, rfl⟩ := macKey_inj (hmac.inj (show _ = Term.hmac _ _ from e)).1
    exact ⟨b, body, h, rfl⟩

theorem shown_epoch {j : Nat} {m : Term} (h : Shown l (setup spk ot) tags (.hmac (epoch (setup spk ot) j) m)) :
    (l.roots j ∧ Term.hmac (epoch (setup spk ot) j) m = .root (setup spk ot) j) ∨
    (l.chains j 0 ∧ Term.hmac (epoch (setup spk ot) j) m = .chain (setup spk ot) j 0) := by
  generalize e : Term.hmac (epoch (setup spk ot) j) m = t at h
  cases h with
  | @root j' h =>
    obtain rfl := epoch_inj (hmac.inj (show _ = Term.hmac _ _ from e)).1
    exact Or.inl ⟨h, rfl⟩
  | @chain j' c h =>
    cases c with
    | zero =>
      obtain rfl := epoch_inj (hmac.inj (show _ = Term.hmac _ _ from e)).1
      exact Or.inr ⟨h, rfl⟩
    | succ c => exact absurd (hmac.inj (show _ = Term.hmac _ _ from e)).1 epoch_ne_chain
  | @cipherKey j' c h => exact absurd (hmac.inj (show _ = Term.hmac _ _ from e)).1 epoch_ne_material
  | @macKey j' c h => exact absurd (hmac.inj (show _ = Term.hmac _ _ from e)).1 epoch_ne_material
  | @iv j' c h => exact absurd (hmac.inj (show _ = Term.hmac _ _ from e)).1 epoch_ne_material
  | @tag b j' c body h => exact absurd (hmac.inj (show _ = Term.hmac _ _ from e)).1 epoch_ne_macKey

theorem shown_chain {j k : Nat} {m : Term} (h : Shown l (setup spk ot) tags (.hmac (chain (setup spk ot) j k) m)) :
    l.chains j (k + 1) ∧ m = .bytes [2] := by
  generalize e : Term.hmac (chain (setup spk ot) j k) m = t at h
  cases h with
  | @root j' h => exact absurd (hmac.inj (show _ = Term.hmac _ _ from e)).1.symm epoch_ne_chain
  | @chain j' c h =>
    cases c with
    | zero => exact absurd (hmac.inj (show _ = Term.hmac _ _ from e)).1.symm epoch_ne_chain
    | succ c =>
      obtain ⟨e1, e2⟩ := hmac.inj (show _ = Term.hmac _ _ from e)
      obtain ⟨rfl, rfl⟩ := chain_inj e1
      exact ⟨h, e2⟩
  | @cipherKey j' c h => exact absurd (hmac.inj (show _ = Term.hmac _ _ from e)).1 chain_ne_material
  | @macKey j' c h => exact absurd (hmac.inj (show _ = Term.hmac _ _ from e)).1 chain_ne_material
  | @iv j' c h => exact absurd (hmac.inj (show _ = Term.hmac _ _ from e)).1 chain_ne_material
  | @tag b j' c body h => exact absurd (hmac.inj (show _ = Term.hmac _ _ from e)).1 chain_ne_macKey

theorem shown_material {j k : Nat} {m : Term} (h : Shown l (setup spk ot) tags (.hmac (material (setup spk ot) j k) m)) :
    l.messages j k := by
  generalize e : Term.hmac (material (setup spk ot) j k) m = t at h
  cases h with
  | @root j' h => exact absurd (hmac.inj (show _ = Term.hmac _ _ from e)).1.symm epoch_ne_material
  | @chain j' c h =>
    cases c with
    | zero => exact absurd (hmac.inj (show _ = Term.hmac _ _ from e)).1.symm epoch_ne_material
    | succ c => exact absurd (hmac.inj (show _ = Term.hmac _ _ from e)).1.symm chain_ne_material
  | @cipherKey j' c h => obtain ⟨rfl, rfl⟩ := material_inj (hmac.inj (show _ = Term.hmac _ _ from e)).1; exact h
  | @macKey j' c h => obtain ⟨rfl, rfl⟩ := material_inj (hmac.inj (show _ = Term.hmac _ _ from e)).1; exact h
  | @iv j' c h => obtain ⟨rfl, rfl⟩ := material_inj (hmac.inj (show _ = Term.hmac _ _ from e)).1; exact h
  | @tag b j' c body h => exact absurd (hmac.inj (show _ = Term.hmac _ _ from e)).1 material_ne_macKey

theorem used_bytes {b : Bytes} : ¬ UsedKey (setup spk ot) (.bytes b) := by
  intro h
  generalize e : Term.bytes b = t at h
  cases h with
  | epoch j => cases j <;> simp [epoch] at e
  | chain j k => cases k <;> simp [chain, block_succ] at e
  | material j k => simp [material] at e
  | macKey j k => simp [macKey, block_succ] at e

theorem used_root {j : Nat} : ¬ UsedKey (setup spk ot) (root (setup spk ot) j) := by
  intro h
  obtain ⟨t, u, hs⟩ := setup_join spk ot
  generalize e : root (setup spk ot) j = t at h
  cases h with
  | epoch i => cases i <;> simp [epoch, root, block_zero, hs] at e
  | chain i k => cases k <;> simp [chain, root, block_succ, block_zero] at e
  | material i k => simp [material, root, block_zero] at e
  | macKey i k => simp [macKey, root, block_succ, block_zero] at e

/-! ## What is known of the conversation -/

theorem learnt_setup : Learnt l (setup spk ot) tags (setup spk ot) ↔ l.setup spk ot := by
  unfold Leak.setup
  cases ot with
  | none => simp [Term.setup, Learnt]
  | some k => simp [Term.setup, Learnt]

theorem learnt_root_of {j : Nat}
    (h : Learnt l (setup spk ot) tags (epoch (setup spk ot) j) ↔ l.opens (l.setup spk ot) j) :
    Learnt l (setup spk ot) tags (Term.root (setup spk ot) j) ↔ l.root (l.setup spk ot) j := by
  unfold Term.root
  rw [block_zero]
  simp only [Learnt, and_true]
  rw [h]
  constructor
  · rintro (h | h)
    · rcases shown_epoch h with ⟨h, _⟩ | ⟨_, h⟩
      · cases j <;> exact Or.inl h
      · simp [chain, block_succ] at h
    · cases j <;> exact Or.inr h
  · intro h
    cases j with
    | zero => exact h.imp (fun h => Shown.root h) id
    | succ j => exact h.imp (fun h => Shown.root h) id

theorem learnt_epoch (j : Nat) : Learnt l (setup spk ot) tags (epoch (setup spk ot) j) ↔ l.opens (l.setup spk ot) j := by
  induction j with
  | zero =>
    unfold epoch Leak.opens
    simp only [Learnt]
    rw [learnt_setup]
    exact ⟨fun h => (h.resolve_left fun h => used_bytes (shown_used h)).2, fun h => Or.inr ⟨trivial, h⟩⟩
  | succ j ih =>
    unfold epoch Leak.opens
    simp only [Learnt]
    rw [← learnt_root_of ih]
    exact ⟨fun h => h.resolve_left fun h => used_root (shown_used h), Or.inr⟩

theorem learnt_root (j : Nat) : Learnt l (setup spk ot) tags (Term.root (setup spk ot) j) ↔ l.root (l.setup spk ot) j :=
  learnt_root_of (learnt_epoch j)

theorem learnt_chain (j k : Nat) : Learnt l (setup spk ot) tags (Term.chain (setup spk ot) j k) ↔
    l.opens (l.setup spk ot) j ∨ ∃ k' ≤ k, l.chains j k' := by
  induction k with
  | zero =>
    have e : Term.chain (setup spk ot) j 0 = .hmac (epoch (setup spk ot) j)
      (.join (block (info j) (epoch (setup spk ot) j) 0) (.join (.bytes (info j)) (.bytes [2]))) := rfl
    rw [e]
    simp only [Learnt, block_zero, and_true]
    rw [learnt_epoch]
    constructor
    · rintro (h | h)
      · rcases shown_epoch h with ⟨_, h⟩ | ⟨h, _⟩
        · simp [root, block_zero] at h
        · exact Or.inr ⟨0, Nat.le_refl _, h⟩
      · exact Or.inl h.1
    · rintro (h | ⟨k', h1, h2⟩)
      · exact Or.inr ⟨h, Or.inr h⟩
      · obtain rfl : k' = 0 := by omega
        exact Or.inl (e ▸ Shown.chain h2)
  | succ k ih =>
    have e : Term.chain (setup spk ot) j (k + 1) = .hmac (Term.chain (setup spk ot) j k) (.bytes [2]) := rfl
    rw [e]
    simp only [Learnt, and_true]
    rw [ih]
    constructor
    · rintro (h | h | ⟨k', h1, h2⟩)
      · exact Or.inr ⟨k + 1, Nat.le_refl _, (shown_chain h).1⟩
      · exact Or.inl h
      · exact Or.inr ⟨k', by omega, h2⟩
    · rintro (h | ⟨k', h1, h2⟩)
      · exact Or.inr (Or.inl h)
      · by_cases hk : k' ≤ k
        · exact Or.inr (Or.inr ⟨k', hk, h2⟩)
        · obtain rfl : k' = k + 1 := by omega
          exact Or.inl (e ▸ Shown.chain h2)

theorem learnt_material (j k : Nat) : Learnt l (setup spk ot) tags (material (setup spk ot) j k) ↔
    l.opens (l.setup spk ot) j ∨ ∃ k' ≤ k, l.chains j k' := by
  unfold material noSalt
  simp only [Learnt, true_and, and_true]
  rw [learnt_chain]
  refine ⟨fun h => (h.resolve_left fun h => used_bytes (shown_used h)).resolve_left fun h => ?_, fun h => Or.inr (Or.inr h)⟩
  have := (shown_chain h).2
  simp at this

theorem learnt_block (j k : Nat) : ∀ p, p ≤ 2 →
    (Learnt l (setup spk ot) tags (block messageKeysInfo (material (setup spk ot) j k) p) ↔ l.reads (l.setup spk ot) j k) := by
  intro p
  induction p with
  | zero =>
    intro _
    rw [block_zero]
    simp only [Learnt, and_true]
    rw [learnt_material]
    exact ⟨fun h => h.imp shown_material id, fun h => h.imp (fun h => Shown.cipherKey h) id⟩
  | succ p ih =>
    intro hp
    have hg : l.messages j k → Shown l (setup spk ot) tags (block messageKeysInfo (material (setup spk ot) j k) (p + 1)) := by
      intro h
      match p, hp with
      | 0, _ => exact Shown.macKey h
      | 1, _ => exact Shown.iv h
    rw [block_succ] at hg ⊢
    simp only [Learnt, and_true]
    rw [learnt_material, ih (by omega)]
    exact ⟨fun h => h.imp shown_material And.left, fun h => h.imp hg fun h' => ⟨h', Or.inr h'⟩⟩

theorem learnt_macKey (j k : Nat) :
    Learnt l (setup spk ot) tags (macKey (setup spk ot) j k) ↔ l.reads (l.setup spk ot) j k := learnt_block j k 1 (by decide)

theorem learnt_derives {t : Term} (h : Derives (l.Sees (setup spk ot) tags) t) : Learnt l (setup spk ot) tags t := by
  induction h with
  | has h =>
    cases h with
    | key h => exact Or.inl h
    | root h => exact Or.inl (Shown.root h)
    | @chain j k h => exact (learnt_chain j k).2 (Or.inr ⟨k, Nat.le_refl _, h⟩)
    | cipherKey h => exact (learnt_block _ _ 0 (by decide)).2 (Or.inl h)
    | macKey h => exact (learnt_block _ _ 1 (by decide)).2 (Or.inl h)
    | iv h => exact (learnt_block _ _ 2 (by decide)).2 (Or.inl h)
    | tag h => exact Or.inl (Shown.tag h)
  | bytes b => trivial
  | pub x => trivial
  | own k => exact Or.inr ⟨k, rfl⟩
  | agree _ ih => exact Or.inl ih
  | agree' _ ih => exact Or.inr ih
  | join _ _ ih1 ih2 => exact ⟨ih1, ih2⟩
  | fst _ ih => exact ih.1
  | snd _ ih => exact ih.2
  | hmac _ _ ih1 ih2 => exact Or.inr ⟨ih1, ih2⟩
  | enc _ _ _ ih1 ih2 ih3 => exact ⟨ih1, ih2, ih3⟩
  | dec _ _ ih1 _ => exact ih1.2.2

/-! ## Keys that are not of the conversation -/

theorem strange_step {r : Term} (hr : ¬ UsedKey (setup spk ot) r) (d : Bytes) : ¬ UsedKey (setup spk ot) (.hmac r (.bytes d)) := by
  intro h
  obtain ⟨t, u, hs⟩ := setup_join spk ot
  generalize e : Term.hmac r (.bytes d) = t at h
  cases h with
  | epoch i => cases i <;> simp [epoch, hs] at e
  | chain i k =>
    cases k with
    | zero => simp [chain, block_succ] at e
    | succ k => exact hr ((hmac.inj (show _ = Term.hmac _ _ from e)).1 ▸ .chain i k)
  | material i k => simp [material] at e
  | macKey i k => simp [macKey, block_succ] at e

/-- The chains that a ratchet step outside the conversation opens. -/
theorem strange_steps {r : Term} (hr : ¬ UsedKey (setup spk ot) r) (d : Bytes) (k : Nat) :
    ¬ UsedKey (setup spk ot) (stepsFrom (block ratchetInfo (.hmac r (.bytes d)) 1) k) := by
  induction k with
  | zero =>
    have hp := strange_step hr d
    intro h
    obtain ⟨t, u, hs⟩ := setup_join spk ot
    generalize e : stepsFrom (block ratchetInfo (.hmac r (.bytes d)) 1) 0 = t at h
    cases h with
    | epoch i => cases i <;> simp [stepsFrom, epoch, block_succ, block_zero, hs] at e
    | chain i k =>
      cases k with
      | zero => exact hp ((hmac.inj (show Term.hmac _ _ = Term.hmac _ _ from e)).1 ▸ .epoch i)
      | succ k => simp [stepsFrom, chain, block_succ] at e
    | material i k => simp [stepsFrom, material, block_succ] at e
    | macKey i k => exact hp ((hmac.inj (show Term.hmac _ _ = Term.hmac _ _ from e)).1 ▸ .material i k)
  | succ k ih => exact strange_step ih [2]

theorem strange_material {c : Term} (hc : ¬ UsedKey (setup spk ot) c) :
    ¬ UsedKey (setup spk ot) (.hmac noSalt (.hmac c (.bytes [1]))) := by
  intro h
  obtain ⟨t, u, hs⟩ := setup_join spk ot
  generalize e : Term.hmac noSalt (.hmac c (.bytes [1])) = t at h
  cases h with
  | epoch i => cases i <;> simp [epoch, hs] at e
  | chain i k => cases k <;> simp [chain, block_succ] at e
  | material i k =>
    simp only [material, hmac.injEq, true_and, and_true] at e
    exact hc (e ▸ .chain i k)
  | macKey i k => simp [macKey, block_succ] at e

theorem strange_mac {c : Term} (hc : ¬ UsedKey (setup spk ot) (.hmac noSalt (.hmac c (.bytes [1])))) :
    ¬ UsedKey (setup spk ot) (block messageKeysInfo (.hmac noSalt (.hmac c (.bytes [1]))) 1) := by
  intro h
  obtain ⟨t, u, hs⟩ := setup_join spk ot
  generalize e : block messageKeysInfo (.hmac noSalt (.hmac c (.bytes [1]))) 1 = t at h
  rw [block_succ] at e
  cases h with
  | epoch i => cases i <;> simp [epoch, block_zero, hs] at e
  | chain i k =>
    cases k with
    | zero => exact hc ((hmac.inj (show Term.hmac _ _ = Term.hmac _ _ from e)).1 ▸ .epoch i)
    | succ k => simp [chain] at e
  | material i k => simp [material] at e
  | macKey i k => exact hc ((hmac.inj (show Term.hmac _ _ = Term.hmac _ _ from e)).1 ▸ .material i k)

theorem learnt_hmac {k m : Term} (hk : ¬ UsedKey (setup spk ot) k) :
    Learnt l (setup spk ot) tags (.hmac k m) ↔ Learnt l (setup spk ot) tags k ∧ Learnt l (setup spk ot) tags m := by
  constructor
  · intro h
    exact Or.resolve_left h fun h => hk (shown_used h)
  · intro h
    exact Or.inr h

theorem learnt_blockOf {i : Bytes} {t : Term} (ht : ¬ UsedKey (setup spk ot) t) (p : Nat) :
    Learnt l (setup spk ot) tags (block i t p) ↔ Learnt l (setup spk ot) tags t := by
  induction p with
  | zero =>
    rw [block_zero, learnt_hmac ht]
    simp [Learnt]
  | succ p ih =>
    rw [block_succ, learnt_hmac ht]
    simp only [Learnt]
    rw [ih]
    simp

theorem learnt_stray {r : Term} (hr : ¬ UsedKey (setup spk ot) r) (d : Bytes) (k : Nat) :
    Learnt l (setup spk ot) tags (strayMac r d k) ↔ Learnt l (setup spk ot) tags r := by
  have hsteps : ∀ k, Learnt l (setup spk ot) tags (stepsFrom (block ratchetInfo (.hmac r (.bytes d)) 1) k) ↔
      Learnt l (setup spk ot) tags r := by
    intro k
    induction k with
    | zero =>
      unfold stepsFrom
      rw [learnt_blockOf (strange_step hr d), learnt_hmac hr]
      simp [Learnt]
    | succ k ih =>
      unfold stepsFrom
      rw [learnt_hmac (strange_steps hr d k), ih]
      simp [Learnt]
  have hs := strange_steps hr d k
  unfold strayMac macFrom
  rw [learnt_blockOf (strange_material hs), noSalt, learnt_hmac used_bytes, learnt_hmac hs, hsteps]
  simp [Learnt]

/-- No HMAC under such a key is given. -/
theorem shown_stray {r m : Term} (hr : ¬ UsedKey (setup spk ot) r) (d : Bytes) (k : Nat) :
    ¬ Shown l (setup spk ot) tags (.hmac (strayMac r d k) m) :=
  fun h => strange_mac (strange_material (strange_steps hr d k)) (shown_used h)

theorem otherSetup_ne {x : Term} {rest : Bytes} :
    ¬ UsedKey (setup spk ot) (.hmac noSalt (.join (.bytes (List.replicate 32 0xFF)) (.join x (.bytes rest)))) := by
  intro h
  generalize e : Term.hmac noSalt (.join (.bytes (List.replicate 32 0xFF)) (.join x (.bytes rest))) = t at h
  cases h with
  | epoch i =>
    cases i with
    | zero => cases ot <;> simp [epoch, setup] at e
    | succ i => simp [epoch] at e
  | chain i k =>
    cases k with
    | zero => simp [chain, block_succ, block_zero] at e
    | succ k => simp [chain] at e
  | material i k => simp [material] at e
  | macKey i k => simp [macKey, block_succ, block_zero] at e

theorem used_otherRoot {x : Term} {rest : Bytes} : ¬ UsedKey (setup spk ot) (otherRoot x rest) := by
  intro h
  obtain ⟨t, u, hs⟩ := setup_join spk ot
  generalize e : otherRoot x rest = t at h
  unfold otherRoot at e
  rw [block_zero] at e
  cases h with
  | epoch i => cases i <;> simp [epoch, hs] at e
  | chain i k => cases k <;> simp [chain, block_succ, block_zero] at e
  | material i k => simp [material] at e
  | macKey i k => simp [macKey, block_succ, block_zero] at e

theorem learnt_otherRoot {x : Term} {rest : Bytes} :
    Learnt l (setup spk ot) tags (otherRoot x rest) ↔ Learnt l (setup spk ot) tags x := by
  unfold otherRoot
  rw [learnt_blockOf otherSetup_ne, noSalt, learnt_hmac used_bytes]
  simp [Learnt]

/-! ## What the attacker can compute -/

theorem sees_block {K : Term → Prop} {t : Term} {i : Bytes} (h : Derives K t) : ∀ p, Derives K (block i t p)
  | 0 => .hmac h (.join (.bytes _) (.bytes _))
  | p + 1 => .hmac h (.join (sees_block h p) (.join (.bytes _) (.bytes _)))

theorem sees_macFrom {K : Term → Prop} {c : Term} (h : Derives K c) (k : Nat) : Derives K (macFrom c k) := by
  have : ∀ k, Derives K (stepsFrom c k) := by
    intro k
    induction k with
    | zero => exact h
    | succ k ih => exact .hmac ih (.bytes _)
  exact sees_block (.hmac (.bytes _) (.hmac (this k) (.bytes _))) 1

theorem sees_stray {K : Term → Prop} {r : Term} (h : Derives K r) (d : Bytes) (k : Nat) : Derives K (strayMac r d k) :=
  sees_macFrom (sees_block (.hmac h (.bytes _)) 1) k

theorem sees_otherRoot {K : Term → Prop} {x : Term} (h : Derives K x) (rest : Bytes) : Derives K (otherRoot x rest) :=
  sees_block (.hmac (.bytes _) (.join (.bytes _) (.join h (.bytes _)))) 0

theorem sees_owns {x : KeyName} (h : l.owns x) : Derives (l.Sees (setup spk ot) tags) (.priv x) := by
  rcases h with h | ⟨k, rfl⟩
  · exact .has (.key h)
  · exact .own k

theorem sees_agree {x y : KeyName} (h : l.owns x ∨ l.owns y) : Derives (l.Sees (setup spk ot) tags) (.agree x y) := by
  rcases h with h | h
  · exact .agree (sees_owns h)
  · exact .agree' (sees_owns h)

theorem sees_setup (h : l.setup spk ot) : Derives (l.Sees (setup spk ot) tags) (setup spk ot) := by
  obtain ⟨h1, h2, h3, h4⟩ := h
  refine .join (.bytes _) (.join (sees_agree h1) (.join (sees_agree h2) ?_))
  cases ot with
  | none => exact sees_agree h3
  | some k => exact .join (sees_agree h3) (sees_agree (h4 k rfl))

theorem sees_root_of {j : Nat} (ih : l.opens (l.setup spk ot) j → Derives (l.Sees (setup spk ot) tags) (epoch (setup spk ot) j))
    (h : l.root (l.setup spk ot) j) : Derives (l.Sees (setup spk ot) tags) (Term.root (setup spk ot) j) := by
  cases j with
  | zero => exact h.elim (fun h => .has (.root h)) fun h => sees_block (ih h) 0
  | succ j => exact h.elim (fun h => .has (.root h)) fun h => sees_block (ih h) 0

theorem sees_epoch : ∀ {j : Nat}, l.opens (l.setup spk ot) j → Derives (l.Sees (setup spk ot) tags) (epoch (setup spk ot) j)
  | 0, h => .hmac (.bytes _) (sees_setup h)
  | _ + 1, h => .hmac (sees_root_of sees_epoch h.1) (sees_agree h.2)

theorem sees_chain {j k : Nat} (h : l.opens (l.setup spk ot) j ∨ ∃ k' ≤ k, l.chains j k') :
    Derives (l.Sees (setup spk ot) tags) (Term.chain (setup spk ot) j k) := by
  induction k with
  | zero =>
    rcases h with h | ⟨k', h1, h2⟩
    · exact sees_block (sees_epoch h) 1
    · obtain rfl : k' = 0 := by omega
      exact .has (.chain h2)
  | succ k ih =>
    rcases h with h | ⟨k', h1, h2⟩
    · exact .hmac (ih (Or.inl h)) (.bytes _)
    · by_cases hk : k' ≤ k
      · exact .hmac (ih (Or.inr ⟨k', hk, h2⟩)) (.bytes _)
      · obtain rfl : k' = k + 1 := by omega
        exact .has (.chain h2)

/-! ## Exactly -/

theorem learnt_sees {t : Term} (h : Learnt l (setup spk ot) tags t) : Derives (l.Sees (setup spk ot) tags) t := by
  induction t with
  | bytes b => exact .bytes b
  | pub x => exact .pub x
  | priv x => exact sees_owns h
  | agree x y => exact sees_agree h
  | join t u ih1 ih2 => exact .join (ih1 h.1) (ih2 h.2)
  | hmac k m ih1 ih2 =>
    rcases h with h | h
    · generalize Term.hmac k m = t at h
      cases h with
      | root h => exact .has (.root h)
      | chain h => exact .has (.chain h)
      | cipherKey h => exact .has (.cipherKey h)
      | macKey h => exact .has (.macKey h)
      | iv h => exact .has (.iv h)
      | tag h => exact .has (.tag h)
    · exact .hmac (ih1 h.1) (ih2 h.2)
  | enc k v m ih1 ih2 ih3 => exact .enc (ih1 h.1) (ih2 h.2.1) (ih3 h.2.2)
  | text b i => exact h.elim

theorem sees_macKey (j k : Nat) : Derives (l.Sees (setup spk ot) tags) (Term.macKey (setup spk ot) j k) ↔
    l.reads (l.setup spk ot) j k := by
  refine ⟨fun h => (learnt_macKey j k).1 (learnt_derives h), fun h => ?_⟩
  rcases h with h | h
  · exact .has (.macKey h)
  · exact sees_block (.hmac (.bytes _) (.hmac (sees_chain h) (.bytes _))) 1

theorem sees_strayMac (j : Nat) (d : Bytes) (k : Nat) :
    Derives (l.Sees (setup spk ot) tags) (Term.strayMac (.root (setup spk ot) j) d k) ↔ l.root (l.setup spk ot) j := by
  refine ⟨fun h => (learnt_root j).1 ((learnt_stray used_root d k).1 (learnt_derives h)), fun h => ?_⟩
  exact sees_stray (sees_root_of sees_epoch h) d k

theorem sees_otherMac (x y : KeyName) (rest d : Bytes) (k : Nat) :
    Derives (l.Sees (setup spk ot) tags) (Term.strayMac (.otherRoot (.agree x y) rest) d k) ↔ l.owns x ∨ l.owns y := by
  refine ⟨fun h => ?_, fun h => sees_stray (sees_otherRoot (sees_agree h) rest) d k⟩
  exact learnt_otherRoot.1 ((learnt_stray used_otherRoot d k).1 (learnt_derives h))

/-- HMACs under the MAC keys of the conversation. -/
theorem sees_hmac {j k : Nat} {y : Term} : Derives (l.Sees (setup spk ot) tags) (.hmac (Term.macKey (setup spk ot) j k) y) ↔
    (l.reads (l.setup spk ot) j k ∧ Derives (l.Sees (setup spk ot) tags) y) ∨
      ∃ b body, tags b j k body ∧ Term.hmac (Term.macKey (setup spk ot) j k) y = .tag (setup spk ot) b j k body := by
  constructor
  · intro h
    rcases learnt_derives h with h | h
    · exact Or.inr (shown_macKey h)
    · exact Or.inl ⟨(learnt_macKey j k).1 h.1, learnt_sees h.2⟩
  · rintro (h | ⟨b, body, h, e⟩)
    · exact .hmac ((sees_macKey j k).2 h.1) h.2
    · rw [e]; exact .has (.tag h)

/-- HMACs under MAC keys that are not of the conversation. -/
theorem sees_stray_hmac {r y : Term} (hr : ¬ UsedKey (setup spk ot) r) {d : Bytes} {k : Nat}
    (h : Derives (l.Sees (setup spk ot) tags) (.hmac (strayMac r d k) y)) :
    Derives (l.Sees (setup spk ot) tags) (strayMac r d k) := by
  rcases learnt_derives h with h | h
  · exact absurd h (shown_stray hr d k)
  · exact learnt_sees h.1

end Axolotl
