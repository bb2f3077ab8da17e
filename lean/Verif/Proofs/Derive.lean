import Verif.Spec.Secrecy

/-! What an attacker can derive from a leak. -/

namespace Axolotl
open Spec Spec.Term

namespace Spec.Term

theorem block_zero (i : Bytes) (t : Term) : block i t 0 = hmac t (join (bytes i) (bytes [1])) := rfl
theorem block_succ (i : Bytes) (t : Term) (p : Nat) :
    block i t (p + 1) = hmac t (join (block i t p) (join (bytes i) (bytes [UInt8.ofNat (p + 2)]))) := rfl

theorem setup_join (spk : KeyName) (ot : Option KeyName) : ∃ t u, setup spk ot = join (bytes (List.replicate 32 0xFF)) (join t u) :=
  ⟨_, _, rfl⟩

theorem epoch_inj {spk : KeyName} {ot : Option KeyName} {i j : Nat} (h : epoch (setup spk ot) i = epoch (setup spk ot) j) : i = j := by
  cases i with
  | zero =>
    cases j with
    | zero => rfl
    | succ j =>
      obtain ⟨t, u, e⟩ := setup_join spk ot
      simp [epoch, e] at h
  | succ i =>
    cases j with
    | zero =>
      obtain ⟨t, u, e⟩ := setup_join spk ot
      simp [epoch, e] at h
    | succ j =>
      simp only [epoch, hmac.injEq, agree.injEq, KeyName.ratchet.injEq] at h
      omega

theorem root_inj {spk : KeyName} {ot : Option KeyName} {i j : Nat} (h : root (setup spk ot) i = root (setup spk ot) j) : i = j := by
  simp only [root, block_zero, hmac.injEq] at h
  exact epoch_inj h.1

theorem chain_inj {spk : KeyName} {ot : Option KeyName} {i j : Nat} : ∀ {k l : Nat},
    chain (setup spk ot) i k = chain (setup spk ot) j l → i = j ∧ k = l := by
  intro k
  induction k with
  | zero =>
    intro l h
    cases l with
    | zero =>
      simp only [chain, block_succ, hmac.injEq] at h
      exact ⟨epoch_inj h.1, rfl⟩
    | succ l => simp [chain, block_succ] at h
  | succ k ih =>
    intro l h
    cases l with
    | zero => simp [chain, block_succ] at h
    | succ l =>
      simp only [chain, hmac.injEq] at h
      obtain ⟨a, b⟩ := ih h.1
      exact ⟨a, by omega⟩

theorem material_inj {spk : KeyName} {ot : Option KeyName} {i j k l : Nat}
    (h : material (setup spk ot) i k = material (setup spk ot) j l) : i = j ∧ k = l := by
  simp only [material, hmac.injEq] at h
  exact chain_inj h.2.1

theorem info_ne (j : Nat) : info j ≠ messageKeysInfo := by
  unfold info
  split <;> decide

end Spec.Term

/-! ## What the attacker knows, read off the structure of terms -/

variable {l : Leak} {spk : KeyName} {ot : Option KeyName} {place : Bool → Nat → Nat → Nat → Prop}

/-- The HMACs the attacker is given. -/
inductive Given (l : Leak) (s : Term) (place : Bool → Nat → Nat → Nat → Prop) : Term → Prop
  | root {j : Nat} : l.roots j → Given l s place (.root s j)
  | chain {j k : Nat} : l.chains j k → Given l s place (.chain s j k)
  | cipherKey {j k : Nat} : l.messages j k → Given l s place (.cipherKey s j k)
  | macKey {j k : Nat} : l.messages j k → Given l s place (.macKey s j k)
  | iv {j k : Nat} : l.messages j k → Given l s place (.iv s j k)
  | tag {b : Bool} {i j k : Nat} {counters : Bytes} : place b i j k →
      Given l s place (.hmac (macKey s j k) (.join (.pub (.identity b)) (.join (.pub (.identity !b)) (body s b i j k counters))))

/-- What can be known of the parts of a term. -/
def Known (l : Leak) (s : Term) (place : Bool → Nat → Nat → Nat → Prop) (T : Bool → Nat → Prop) : Term → Prop
  | .bytes _ => True
  | .pub _ => True
  | .priv x => l.owns x
  | .agree x y => l.owns x ∨ l.owns y
  | .join t u => Known l s place T t ∧ Known l s place T u
  | .hmac k m => Given l s place (.hmac k m) ∨ (Known l s place T k ∧ Known l s place T m)
  | .enc k v m => (∃ b i j p, place b i j p ∧ k = cipherKey s j p ∧ v = iv s j p ∧ m = .text b i) ∨
      (Known l s place T k ∧ Known l s place T v ∧ Known l s place T m)
  | .text b i => T b i

section
variable {T : Bool → Nat → Prop}

theorem given_root {j : Nat} (h : Given l (setup spk ot) place (.root (setup spk ot) j)) : l.roots j := by
  generalize e : Term.root (setup spk ot) j = t at h
  cases h with
  | root h => rw [root_inj e]; exact h
  | @chain j' k h =>
    cases k with
    | zero => simp [Term.root, Term.chain, block_zero, block_succ] at e
    | succ k => simp [Term.root, Term.chain, block_zero] at e
  | cipherKey h =>
    simp only [Term.root, Term.cipherKey, block_zero, hmac.injEq, join.injEq, bytes.injEq] at e
    exact absurd e.2.1 (info_ne j)
  | macKey h => simp [Term.root, Term.macKey, block_zero, block_succ] at e
  | iv h => simp [Term.root, Term.iv, block_zero, block_succ] at e
  | tag h => simp [Term.root, block_zero] at e

theorem given_chain {j k : Nat} (h : Given l (setup spk ot) place (.chain (setup spk ot) j k)) : l.chains j k := by
  generalize e : Term.chain (setup spk ot) j k = t at h
  cases h with
  | @root j' h =>
    cases k with
    | zero => simp [Term.root, Term.chain, block_zero, block_succ] at e
    | succ k => simp [Term.root, Term.chain, block_zero] at e
  | chain h =>
    obtain ⟨rfl, rfl⟩ := chain_inj e
    exact h
  | cipherKey h =>
    cases k with
    | zero => simp [Term.cipherKey, Term.chain, block_zero, block_succ] at e
    | succ k => simp [Term.cipherKey, Term.chain, block_zero] at e
  | macKey h =>
    cases k with
    | zero =>
      simp only [Term.macKey, Term.chain, block_succ, hmac.injEq, join.injEq, bytes.injEq] at e
      exact absurd e.2.2.1 (info_ne j)
    | succ k => simp [Term.macKey, Term.chain, block_succ] at e
  | iv h =>
    cases k with
    | zero =>
      simp only [Term.iv, Term.chain, block_succ, hmac.injEq, join.injEq, bytes.injEq] at e
      exact absurd e.2.2.1 (info_ne j)
    | succ k => simp [Term.iv, Term.chain, block_succ] at e
  | tag h =>
    cases k with
    | zero => simp [Term.chain, block_succ, block_zero] at e
    | succ k => simp [Term.chain] at e

theorem given_block {p j k : Nat} (hp : p ≤ 2) (h : Given l (setup spk ot) place (block messageKeysInfo (material (setup spk ot) j k) p)) :
    l.messages j k := by
  generalize e : block messageKeysInfo (material (setup spk ot) j k) p = t at h
  have key : ∀ {q j' k'}, block messageKeysInfo (material (setup spk ot) j k) p = block messageKeysInfo (material (setup spk ot) j' k') q →
      j = j' ∧ k = k' := by
    intro q j' k' e
    cases p <;> cases q <;> simp only [block_zero, block_succ, hmac.injEq] at e <;> exact material_inj e.1
  cases h with
  | @root j' h =>
    cases p with
    | zero =>
      simp only [Term.root, block_zero, hmac.injEq, join.injEq, bytes.injEq] at e
      exact absurd e.2.1.symm (info_ne _)
    | succ p => cases p <;> simp [Term.root, block_zero, block_succ] at e
  | @chain j' k' h =>
    cases k' with
    | zero =>
      cases p with
      | zero => simp [Term.chain, block_zero, block_succ] at e
      | succ p =>
        simp only [Term.chain, block_succ, hmac.injEq, join.injEq, bytes.injEq] at e
        exact absurd e.2.2.1.symm (info_ne _)
    | succ k' => cases p <;> simp [Term.chain, block_zero, block_succ] at e
  | cipherKey h => obtain ⟨rfl, rfl⟩ := key (q := 0) e; exact h
  | macKey h => obtain ⟨rfl, rfl⟩ := key (q := 1) e; exact h
  | iv h => obtain ⟨rfl, rfl⟩ := key (q := 2) e; exact h
  | tag h =>
    cases p with
    | zero => simp [block_zero] at e
    | succ p => cases p <;> simp [block_zero, block_succ] at e

theorem given_agree {k : Term} {x y : KeyName} : ¬ Given l (setup spk ot) place (.hmac k (.agree x y)) := by
  intro h
  generalize e : Term.hmac k (.agree x y) = t at h
  cases h with
  | root h => simp [Term.root, block_zero] at e
  | @chain j' k' h => cases k' <;> simp [Term.chain, block_succ] at e
  | cipherKey h => simp [Term.cipherKey, block_zero] at e
  | macKey h => simp [Term.macKey, block_succ] at e
  | iv h => simp [Term.iv, block_succ] at e
  | tag h => simp at e

theorem given_hmac {k a b : Term} : ¬ Given l (setup spk ot) place (.hmac k (.hmac a b)) := by
  intro h
  generalize e : Term.hmac k (.hmac a b) = t at h
  cases h with
  | root h => simp [Term.root, block_zero] at e
  | @chain j' k' h => cases k' <;> simp [Term.chain, block_succ] at e
  | cipherKey h => simp [Term.cipherKey, block_zero] at e
  | macKey h => simp [Term.macKey, block_succ] at e
  | iv h => simp [Term.iv, block_succ] at e
  | tag h => simp at e

theorem given_one {k : Term} : ¬ Given l (setup spk ot) place (.hmac k (.bytes [1])) := by
  intro h
  generalize e : Term.hmac k (.bytes [1]) = t at h
  cases h with
  | root h => simp [Term.root, block_zero] at e
  | @chain j' k' h => cases k' <;> simp [Term.chain, block_succ] at e
  | cipherKey h => simp [Term.cipherKey, block_zero] at e
  | macKey h => simp [Term.macKey, block_succ] at e
  | iv h => simp [Term.iv, block_succ] at e
  | tag h => simp at e

theorem given_setup {k : Term} : ¬ Given l (setup spk ot) place (.hmac k (setup spk ot)) := by
  intro h
  obtain ⟨t, u, hs⟩ := setup_join spk ot
  generalize e : Term.hmac k (setup spk ot) = t at h
  cases h with
  | root h => simp [Term.root, block_zero, hs] at e
  | @chain j' k' h => cases k' <;> simp [Term.chain, block_succ, block_zero, hs] at e
  | cipherKey h => simp [Term.cipherKey, block_zero, hs] at e
  | macKey h => simp [Term.macKey, block_succ, block_zero, hs] at e
  | iv h => simp [Term.iv, block_succ, block_zero, hs] at e
  | tag h => simp [hs] at e

theorem known_setup : Known l (setup spk ot) place T (setup spk ot) ↔ l.setup spk ot := by
  unfold Leak.setup
  cases ot with
  | none => simp [Term.setup, Known]
  | some k => simp [Term.setup, Known]

theorem known_root_of {j : Nat}
    (h : Known l (setup spk ot) place T (epoch (setup spk ot) j) ↔ l.opens (l.setup spk ot) j) :
    Known l (setup spk ot) place T (Term.root (setup spk ot) j) ↔ l.root (l.setup spk ot) j := by
  unfold Term.root
  rw [block_zero]
  simp only [Known, and_true]
  rw [h]
  constructor
  · rintro (h | h)
    · have := given_root (show Given l (setup spk ot) place (Term.root (setup spk ot) j) from h)
      cases j <;> exact Or.inl this
    · cases j <;> exact Or.inr h
  · intro h
    cases j with
    | zero => exact h.imp (fun h => Given.root h) id
    | succ j => exact h.imp (fun h => Given.root h) id

theorem known_epoch (j : Nat) : Known l (setup spk ot) place T (epoch (setup spk ot) j) ↔ l.opens (l.setup spk ot) j := by
  induction j with
  | zero =>
    unfold epoch Leak.opens
    simp only [Known]
    rw [known_setup]
    exact ⟨fun h => h.resolve_left given_setup |>.2, fun h => Or.inr ⟨trivial, h⟩⟩
  | succ j ih =>
    unfold epoch Leak.opens
    simp only [Known]
    rw [← known_root_of ih]
    exact ⟨fun h => h.resolve_left given_agree, Or.inr⟩

theorem known_root (j : Nat) : Known l (setup spk ot) place T (Term.root (setup spk ot) j) ↔ l.root (l.setup spk ot) j :=
  known_root_of (known_epoch j)

theorem known_chain (j k : Nat) : Known l (setup spk ot) place T (Term.chain (setup spk ot) j k) ↔
    l.opens (l.setup spk ot) j ∨ ∃ k' ≤ k, l.chains j k' := by
  induction k with
  | zero =>
    have hg := @given_chain l spk ot place j 0
    have e : Term.chain (setup spk ot) j 0 = .hmac (epoch (setup spk ot) j)
      (.join (block (info j) (epoch (setup spk ot) j) 0) (.join (.bytes (info j)) (.bytes [2]))) := rfl
    rw [e] at hg ⊢
    simp only [Known, block_zero, and_true] at hg ⊢
    rw [known_epoch]
    constructor
    · rintro (h | h)
      · exact Or.inr ⟨0, Nat.le_refl _, hg h⟩
      · exact Or.inl h.1
    · rintro (h | ⟨k', h1, h2⟩)
      · exact Or.inr ⟨h, Or.inr h⟩
      · obtain rfl : k' = 0 := by omega
        exact Or.inl (e ▸ Given.chain h2)
  | succ k ih =>
    have hg := @given_chain l spk ot place j (k + 1)
    have e : Term.chain (setup spk ot) j (k + 1) = .hmac (Term.chain (setup spk ot) j k) (.bytes [2]) := rfl
    rw [e] at hg ⊢
    simp only [Known, and_true]
    rw [ih]
    constructor
    · rintro (h | h | ⟨k', h1, h2⟩)
      · exact Or.inr ⟨k + 1, Nat.le_refl _, hg h⟩
      · exact Or.inl h
      · exact Or.inr ⟨k', by omega, h2⟩
    · rintro (h | ⟨k', h1, h2⟩)
      · exact Or.inr (Or.inl h)
      · by_cases hk : k' ≤ k
        · exact Or.inr (Or.inr ⟨k', hk, h2⟩)
        · obtain rfl : k' = k + 1 := by omega
          exact Or.inl (e ▸ Given.chain h2)

theorem known_material (j k : Nat) : Known l (setup spk ot) place T (material (setup spk ot) j k) ↔
    l.opens (l.setup spk ot) j ∨ ∃ k' ≤ k, l.chains j k' := by
  unfold material noSalt
  simp only [Known, true_and, and_true]
  rw [known_chain]
  exact ⟨fun h => (h.resolve_left given_hmac).resolve_left given_one, fun h => Or.inr (Or.inr h)⟩

theorem known_block (j k : Nat) : ∀ p, p ≤ 2 →
    (Known l (setup spk ot) place T (block messageKeysInfo (material (setup spk ot) j k) p) ↔ l.reads (l.setup spk ot) j k) := by
  intro p hp
  have hgiven : l.messages j k → Given l (setup spk ot) place (block messageKeysInfo (material (setup spk ot) j k) p) := by
    intro h
    match p, hp with
    | 0, _ => exact Given.cipherKey h
    | 1, _ => exact Given.macKey h
    | 2, _ => exact Given.iv h
  induction p with
  | zero =>
    rw [block_zero] at hgiven ⊢
    simp only [Known, and_true]
    rw [known_material]
    exact ⟨fun h => h.imp (fun h => given_block (p := 0) hp h) id, fun h => h.imp hgiven id⟩
  | succ p ih =>
    have ih : Known l (setup spk ot) place T (block messageKeysInfo (material (setup spk ot) j k) p) ↔
        l.reads (l.setup spk ot) j k := ih (by omega) (by
      intro h
      match p, hp with
      | 0, _ => exact Given.cipherKey h
      | 1, _ => exact Given.macKey h)
    rw [block_succ] at hgiven ⊢
    simp only [Known, and_true]
    rw [known_material, ih]
    exact ⟨fun h => h.imp (fun h => given_block (p := p + 1) hp h) And.left,
      fun h => h.imp hgiven fun h' => ⟨h', Or.inr h'⟩⟩

theorem known_has (hT : ∀ b i, l.texts b i → T b i) {t : Term} (h : l.Has (setup spk ot) place t) :
    Known l (setup spk ot) place T t := by
  cases h with
  | key h => exact Or.inl h
  | root h => exact Or.inl (Given.root h)
  | @chain j k h => exact (known_chain j k).2 (Or.inr ⟨k, Nat.le_refl _, h⟩)
  | cipherKey h => exact (known_block _ _ 0 (by decide)).2 (Or.inl h)
  | macKey h => exact (known_block _ _ 1 (by decide)).2 (Or.inl h)
  | iv h => exact (known_block _ _ 2 (by decide)).2 (Or.inl h)
  | text h => exact hT _ _ h
  | wire h => exact ⟨⟨trivial, trivial, Or.inl ⟨_, _, _, _, h, rfl, rfl, rfl⟩⟩, Or.inl (Given.tag h)⟩

theorem known_derives (hT : ∀ b i, l.texts b i → T b i)
    (hT' : ∀ b i j k, place b i j k → l.reads (l.setup spk ot) j k → T b i) {t : Term}
    (h : Derives (l.Has (setup spk ot) place) t) : Known l (setup spk ot) place T t := by
  induction h with
  | has h => exact known_has hT h
  | bytes b => trivial
  | pub x => trivial
  | own k => exact Or.inr ⟨k, rfl⟩
  | agree _ ih => exact Or.inl ih
  | agree' _ ih => exact Or.inr ih
  | join _ _ ih1 ih2 => exact ⟨ih1, ih2⟩
  | fst _ ih => exact ih.1
  | snd _ ih => exact ih.2
  | hmac _ _ ih1 ih2 => exact Or.inr ⟨ih1, ih2⟩
  | enc _ _ _ ih1 ih2 ih3 => exact Or.inr ⟨ih1, ih2, ih3⟩
  | dec _ _ ih1 ih2 =>
    rcases ih1 with ⟨b, i, j, k, h1, rfl, rfl, rfl⟩ | ih1
    · exact hT' b i j k h1 ((known_block j k 0 (by decide)).1 ih2)
    · exact ih1.2.2

end

/-! ## What the attacker can compute -/

theorem derives_owns {x : KeyName} (h : l.owns x) : Derives (l.Has (setup spk ot) place) (.priv x) := by
  rcases h with h | ⟨k, rfl⟩
  · exact .has (.key h)
  · exact .own k

theorem derives_agree {x y : KeyName} (h : l.owns x ∨ l.owns y) : Derives (l.Has (setup spk ot) place) (.agree x y) := by
  rcases h with h | h
  · exact .agree (derives_owns h)
  · exact .agree' (derives_owns h)

theorem derives_setup (h : l.setup spk ot) : Derives (l.Has (setup spk ot) place) (setup spk ot) := by
  obtain ⟨h1, h2, h3, h4⟩ := h
  refine .join (.bytes _) (.join (derives_agree h1) (.join (derives_agree h2) ?_))
  cases ot with
  | none => exact derives_agree h3
  | some k => exact .join (derives_agree h3) (derives_agree (h4 k rfl))

theorem derives_block {t : Term} {i : Bytes} (h : Derives (l.Has (setup spk ot) place) t) :
    ∀ p, Derives (l.Has (setup spk ot) place) (block i t p)
  | 0 => .hmac h (.join (.bytes _) (.bytes _))
  | p + 1 => .hmac h (.join (derives_block h p) (.join (.bytes _) (.bytes _)))

theorem derives_root_of {j : Nat} (ih : l.opens (l.setup spk ot) j → Derives (l.Has (setup spk ot) place) (epoch (setup spk ot) j))
    (h : l.root (l.setup spk ot) j) : Derives (l.Has (setup spk ot) place) (Term.root (setup spk ot) j) := by
  cases j with
  | zero => exact h.elim (fun h => .has (.root h)) fun h => derives_block (ih h) 0
  | succ j => exact h.elim (fun h => .has (.root h)) fun h => derives_block (ih h) 0

theorem derives_epoch : ∀ {j : Nat}, l.opens (l.setup spk ot) j → Derives (l.Has (setup spk ot) place) (epoch (setup spk ot) j)
  | 0, h => .hmac (.bytes _) (derives_setup h)
  | _ + 1, h => .hmac (derives_root_of derives_epoch h.1) (derives_agree h.2)

theorem derives_chain {j k : Nat} (h : l.opens (l.setup spk ot) j ∨ ∃ k' ≤ k, l.chains j k') :
    Derives (l.Has (setup spk ot) place) (Term.chain (setup spk ot) j k) := by
  induction k with
  | zero =>
    rcases h with h | ⟨k', h1, h2⟩
    · exact derives_block (derives_epoch h) 1
    · obtain rfl : k' = 0 := by omega
      exact .has (.chain h2)
  | succ k ih =>
    rcases h with h | ⟨k', h1, h2⟩
    · exact .hmac (ih (Or.inl h)) (.bytes _)
    · by_cases hk : k' ≤ k
      · exact .hmac (ih (Or.inr ⟨k', hk, h2⟩)) (.bytes _)
      · obtain rfl : k' = k + 1 := by omega
        exact .has (.chain h2)

theorem derives_keys {j k : Nat} (h : l.reads (l.setup spk ot) j k) :
    Derives (l.Has (setup spk ot) place) (Term.cipherKey (setup spk ot) j k) ∧
    Derives (l.Has (setup spk ot) place) (Term.macKey (setup spk ot) j k) ∧
    Derives (l.Has (setup spk ot) place) (Term.iv (setup spk ot) j k) := by
  rcases h with h | h
  · exact ⟨.has (.cipherKey h), .has (.macKey h), .has (.iv h)⟩
  · have hm : Derives (l.Has (setup spk ot) place) (material (setup spk ot) j k) :=
      .hmac (.bytes _) (.hmac (derives_chain h) (.bytes _))
    exact ⟨derives_block hm 0, derives_block hm 1, derives_block hm 2⟩

/-! ## Exactly -/

/-- Plaintexts. -/
theorem derives_text (b : Bool) (i : Nat) : Derives (l.Has (setup spk ot) place) (.text b i) ↔
    l.texts b i ∨ ∃ j k, place b i j k ∧ l.reads (l.setup spk ot) j k := by
  constructor
  · intro h
    exact known_derives (T := fun b i => l.texts b i ∨ ∃ j k, place b i j k ∧ l.reads (l.setup spk ot) j k)
      (fun _ _ h => Or.inl h) (fun b i j k h1 h2 => Or.inr ⟨j, k, h1, h2⟩) h
  · rintro (h | ⟨j, k, h1, h2⟩)
    · exact .has (.text h)
    · have := Derives.has (K := l.Has (setup spk ot) place) (.wire (counters := []) h1)
      exact .dec (.snd (.snd (.fst this))) (derives_keys h2).1

theorem known_all {t : Term} (h : Derives (l.Has (setup spk ot) place) t) : Known l (setup spk ot) place (fun _ _ => True) t :=
  known_derives (fun _ _ _ => trivial) (fun _ _ _ _ _ _ => trivial) h

theorem derives_macKey (j k : Nat) : Derives (l.Has (setup spk ot) place) (Term.macKey (setup spk ot) j k) ↔
    l.reads (l.setup spk ot) j k :=
  ⟨fun h => (known_block j k 1 (by decide)).1 (known_all h), fun h => (derives_keys h).2.1⟩

theorem derives_root (j : Nat) : Derives (l.Has (setup spk ot) place) (Term.root (setup spk ot) j) ↔ l.root (l.setup spk ot) j :=
  ⟨fun h => (known_root j).1 (known_all h), derives_root_of derives_epoch⟩

theorem derives_chainKey (j k : Nat) : Derives (l.Has (setup spk ot) place) (Term.chain (setup spk ot) j k) ↔
    l.opens (l.setup spk ot) j ∨ ∃ k' ≤ k, l.chains j k' :=
  ⟨fun h => (known_chain j k).1 (known_all h), derives_chain⟩

theorem derives_priv (x : KeyName) : Derives (l.Has (setup spk ot) place) (.priv x) ↔ l.owns x :=
  ⟨fun h => known_all h, derives_owns⟩

end Axolotl
