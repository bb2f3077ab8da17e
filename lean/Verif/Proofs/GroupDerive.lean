import Verif.Spec.GroupSecrecy

/-! What an attacker can derive from a leak in a group. -/

namespace Axolotl
open Spec Spec.GTerm

variable {l : GLeak} {headers : Nat → Bytes} {count : Nat}

theorem GTerm.chain_inj : ∀ {i j : Nat}, GTerm.chain i = GTerm.chain j → i = j
  | 0, 0, _ => rfl
  | 0, _ + 1, h => by simp [GTerm.chain] at h
  | _ + 1, 0, h => by simp [GTerm.chain] at h
  | i + 1, j + 1, h => by
    simp only [GTerm.chain, hmac.injEq] at h
    rw [GTerm.chain_inj h.1]

theorem GTerm.keys_inj {i j : Nat} (h : GTerm.keys i = GTerm.keys j) : i = j := by
  simp only [GTerm.keys, block1, material, messageSeed, join.injEq, hmac.injEq] at h
  exact GTerm.chain_inj h.1.1.2.1

/-- The HMACs the attacker is given. -/
inductive GGiven (l : GLeak) : GTerm → Prop
  | chain {k : Nat} : l.chains (k + 1) → GGiven l (.chain (k + 1))
  | seed {k : Nat} : l.seeds k → GGiven l (.messageSeed k)

/-- What can be known of the parts of a term. -/
def GKnown (l : GLeak) (headers : Nat → Bytes) (count : Nat) (T : Nat → Prop) : GTerm → Prop
  | .bytes _ => True
  | .seed => l.chains 0
  | .signing => l.signing
  | .join s t => GKnown l headers count T s ∧ GKnown l headers count T t
  | .hmac k m => GGiven l (.hmac k m) ∨ (GKnown l headers count T k ∧ GKnown l headers count T m)
  | .enc k m => (∃ i < count, k = GTerm.keys i ∧ m = .text i) ∨ (GKnown l headers count T k ∧ GKnown l headers count T m)
  | .sig m => (∃ i < count, m = GTerm.body i (headers i)) ∨ (l.signing ∧ GDerives (l.Has headers count) m)
  | .text i => T i

variable {T : Nat → Prop}

theorem ggiven_chain {k : Nat} (h : GGiven l (.hmac (GTerm.chain k) (.bytes [2]))) : l.chains (k + 1) := by
  generalize e : GTerm.hmac (GTerm.chain k) (.bytes [2]) = t at h
  cases h with
  | @chain j h =>
    simp only [GTerm.chain, hmac.injEq] at e
    rw [GTerm.chain_inj e.1]; exact h
  | seed h => simp [messageSeed] at e

theorem ggiven_seed {k : Nat} (h : GGiven l (.hmac (GTerm.chain k) (.bytes [1]))) : l.seeds k := by
  generalize e : GTerm.hmac (GTerm.chain k) (.bytes [1]) = t at h
  cases h with
  | chain h => simp [GTerm.chain] at e
  | seed h =>
    simp only [messageSeed, hmac.injEq] at e
    rw [GTerm.chain_inj e.1]; exact h

theorem ggiven_hmac {k a b : GTerm} : ¬ GGiven l (.hmac k (.hmac a b)) := by
  intro h
  generalize e : GTerm.hmac k (.hmac a b) = t at h
  cases h with
  | chain h => simp [GTerm.chain] at e
  | seed h => simp [messageSeed] at e

theorem ggiven_join {k a b : GTerm} : ¬ GGiven l (.hmac k (.join a b)) := by
  intro h
  generalize e : GTerm.hmac k (.join a b) = t at h
  cases h with
  | chain h => simp [GTerm.chain] at e
  | seed h => simp [messageSeed] at e

theorem gknown_chain (k : Nat) : GKnown l headers count T (GTerm.chain k) ↔ ∃ k' ≤ k, l.chains k' := by
  induction k with
  | zero =>
    show l.chains 0 ↔ _
    constructor
    · exact fun h => ⟨0, Nat.le_refl _, h⟩
    · rintro ⟨k', h1, h2⟩
      obtain rfl : k' = 0 := by omega
      exact h2
  | succ k ih =>
    show GGiven l (.hmac (GTerm.chain k) (.bytes [2])) ∨ (GKnown l headers count T (GTerm.chain k) ∧ True) ↔ _
    rw [ih]
    constructor
    · rintro (h | ⟨⟨k', h1, h2⟩, _⟩)
      · exact ⟨k + 1, Nat.le_refl _, ggiven_chain h⟩
      · exact ⟨k', by omega, h2⟩
    · rintro ⟨k', h1, h2⟩
      by_cases hk : k' ≤ k
      · exact .inr ⟨⟨k', hk, h2⟩, trivial⟩
      · obtain rfl : k' = k + 1 := by omega
        exact .inl (GGiven.chain h2)

theorem gknown_seed (k : Nat) : GKnown l headers count T (GTerm.messageSeed k) ↔ l.reads k := by
  show GGiven l (.hmac (GTerm.chain k) (.bytes [1])) ∨ (GKnown l headers count T (GTerm.chain k) ∧ True) ↔ _
  rw [gknown_chain]
  exact ⟨fun h => h.imp ggiven_seed And.left, fun h => h.imp (fun h => GGiven.seed h) fun h => ⟨h, trivial⟩⟩

theorem gknown_keys (k : Nat) : GKnown l headers count T (GTerm.keys k) ↔ l.reads k := by
  have h0 : GKnown l headers count T (GTerm.material k) ↔ l.reads k := by
    show GGiven l (.hmac _ (.hmac _ _)) ∨ (True ∧ GKnown l headers count T (GTerm.messageSeed k)) ↔ _
    rw [gknown_seed]
    exact ⟨fun h => (h.resolve_left ggiven_hmac).2, fun h => .inr ⟨trivial, h⟩⟩
  have h1 : GKnown l headers count T (GTerm.block1 k) ↔ l.reads k := by
    show GGiven l (.hmac _ (.join _ _)) ∨ (GKnown l headers count T (GTerm.material k) ∧ True ∧ True) ↔ _
    rw [h0]
    exact ⟨fun h => (h.resolve_left ggiven_join).1, fun h => .inr ⟨h, trivial, trivial⟩⟩
  show GKnown l headers count T (GTerm.block1 k) ∧ (GGiven l (.hmac _ (.join _ _)) ∨
    (GKnown l headers count T (GTerm.material k) ∧ GKnown l headers count T (GTerm.block1 k) ∧ True ∧ True)) ↔ _
  rw [h0, h1]
  exact ⟨And.left, fun h => ⟨h, .inr ⟨h, h, trivial, trivial⟩⟩⟩

theorem gknown_derives (hT : ∀ i, l.texts i → T i) (hT' : ∀ i < count, l.reads i → T i) {t : GTerm}
    (h : GDerives (l.Has headers count) t) : GKnown l headers count T t := by
  induction h with
  | has h =>
    cases h with
    | @chain k h => exact (gknown_chain k).2 ⟨k, Nat.le_refl _, h⟩
    | @seed k h => exact (gknown_seed k).2 (.inl h)
    | signing h => exact h
    | text h => exact hT _ h
    | wire h => exact ⟨⟨trivial, .inl ⟨_, h, rfl, rfl⟩⟩, .inl ⟨_, h, rfl⟩⟩
  | bytes b => trivial
  | join _ _ ih1 ih2 => exact ⟨ih1, ih2⟩
  | fst _ ih => exact ih.1
  | snd _ ih => exact ih.2
  | hmac _ _ ih1 ih2 => exact .inr ⟨ih1, ih2⟩
  | enc _ _ ih1 ih2 => exact .inr ⟨ih1, ih2⟩
  | dec _ _ ih1 ih2 =>
    rcases ih1 with ⟨i, h1, rfl, rfl⟩ | ih1
    · exact hT' i h1 ((gknown_keys i).1 ih2)
    · exact ih1.2
  | sign _ h2 ih1 _ => exact .inr ⟨ih1, h2⟩

/-! ## What the attacker can compute -/

theorem gderives_chain (k : Nat) : GDerives (l.Has headers count) (GTerm.chain k) ↔ ∃ k' ≤ k, l.chains k' := by
  constructor
  · intro h
    exact (gknown_chain k).1 (gknown_derives (T := fun _ => True) (fun _ _ => trivial) (fun _ _ _ => trivial) h)
  · induction k with
    | zero =>
      rintro ⟨k', h1, h2⟩
      obtain rfl : k' = 0 := by omega
      exact .has (.chain h2)
    | succ k ih =>
      rintro ⟨k', h1, h2⟩
      by_cases hk : k' ≤ k
      · exact .hmac (ih ⟨k', hk, h2⟩) (.bytes _)
      · obtain rfl : k' = k + 1 := by omega
        exact .has (.chain h2)

theorem gderives_keys (k : Nat) : GDerives (l.Has headers count) (GTerm.keys k) ↔ l.reads k := by
  constructor
  · intro h
    exact (gknown_keys k).1 (gknown_derives (T := fun _ => True) (fun _ _ => trivial) (fun _ _ _ => trivial) h)
  · intro h
    have hs : GDerives (l.Has headers count) (GTerm.messageSeed k) := by
      rcases h with h | h
      · exact .has (.seed h)
      · exact .hmac ((gderives_chain k).2 h) (.bytes _)
    have hm : GDerives (l.Has headers count) (GTerm.material k) := .hmac (.bytes _) hs
    have h1 : GDerives (l.Has headers count) (GTerm.block1 k) := .hmac hm (.join (.bytes _) (.bytes _))
    exact .join h1 (.hmac hm (.join h1 (.join (.bytes _) (.bytes _))))

theorem gderives_text (i : Nat) : GDerives (l.Has headers count) (.text i) ↔ l.texts i ∨ (i < count ∧ l.reads i) := by
  constructor
  · intro h
    exact gknown_derives (T := fun i => l.texts i ∨ (i < count ∧ l.reads i)) (fun _ h => .inl h) (fun _ h h' => .inr ⟨h, h'⟩) h
  · rintro (h | ⟨h1, h2⟩)
    · exact .has (.text h)
    · exact .dec (.snd (.fst (.has (.wire h1)))) ((gderives_keys i).2 h2)

theorem gderives_signing : GDerives (l.Has headers count) .signing ↔ l.signing :=
  ⟨fun h => gknown_derives (T := fun _ => True) (fun _ _ => trivial) (fun _ _ _ => trivial) h, fun h => .has (.signing h)⟩

theorem gderives_sig (m : GTerm) : GDerives (l.Has headers count) (.sig m) ↔
    (∃ i < count, m = GTerm.body i (headers i)) ∨ (l.signing ∧ GDerives (l.Has headers count) m) := by
  constructor
  · intro h
    exact gknown_derives (T := fun _ => True) (fun _ _ => trivial) (fun _ _ _ => trivial) h
  · rintro (⟨i, h, rfl⟩ | ⟨h1, h2⟩)
    · exact .snd (.has (.wire h))
    · exact .sign (.has (.signing h1)) h2

end Axolotl
